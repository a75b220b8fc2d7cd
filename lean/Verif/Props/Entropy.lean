import Verif.Props.Thermo
/-
C84: the entropy correction is the free energy of an ideal gas. Its value for every gas of the data
base in terms of the thermal wave length and the vibrational and rotational sums of states; where the
treatment of vibrations differs between gases.
-/
namespace Verif
open Dict

/-! ## Specification -/

/-- Constants in SI units (CODATA), and Boltzmann's constant in eV/K. -/
noncomputable def boltzmann : ℝ := 1.38064852e-23
noncomputable def planck : ℝ := 6.626070040e-34
noncomputable def dalton : ℝ := 1.66053904e-27
noncomputable def boltzmannEV : ℝ := 8.6173324e-5

/-- Thermal wave length of a molecule of `m` dalton. -/
noncomputable def waveLength (m T : ℝ) : ℝ := planck / √(2 * Real.pi * (dalton * m) * boltzmann * T)

/-- Rotational sum of states: classical with the first quantum corrections for a linear molecule
(left out when they are small), classical for others. -/
noncomputable def rotationSum (T sigma : ℝ) : List ℝ → ℝ
  | [t] => T / (sigma * t) * (if t / T ≤ 0.01 then 1 else 1 + t / (3 * T) + t ^ 2 / (15 * T ^ 2))
  | [a, b, c] => √Real.pi / sigma * √(T ^ 3 / (a * b * c))
  | _ => 0

/-- Free energy of the vibrations above the ground state, over `kB T`. -/
noncomputable def vibrationFree (T : ℝ) (thetas : List ℝ) : ℝ :=
  (thetas.map fun t => Real.log (1 - Real.exp (-t / T))).sum

/-- The energy of the ground state, over `kB`: half a quantum for each vibration. -/
noncomputable def zeroPoint (thetas : List ℝ) : ℝ := thetas.sum / 2

/-- Free energy of an ideal gas of molecules of `m` dalton at the pressure `p` (Pa), counted from the
ground state. -/
noncomputable def idealGas (T p sigma m : ℝ) (rot vib : List ℝ) : ℝ :=
  boltzmannEV * T * (3 * Real.log (waveLength m T) - Real.log (boltzmann * T / p) - Real.log (rotationSum T sigma rot)
    + vibrationFree T vib)

/-! ## Lemmas -/

theorem db_mass {name : Str} {f : Formula} {sigma m : ℚ} {rot vib : List ℚ}
    (h : InDatabase name f sigma rot vib m) : 0 < m := by
  have h1 := h.mass
  unfold molecularMass at h1
  cases hs : string2symbols f.species with
  | error e => rw [hs] at h1; cases h1
  | ok l =>
    rw [hs] at h1
    refine (sumMasses_pos h1).2 ?_
    rintro rfl
    obtain ⟨ns, hg⟩ := good_of_chemFormula h.parse
    exact db_mass_pos _ (mem_of_get? h.rotation) _ hg.reparse hs

theorem rotationQ_sum {T sigma q : ℝ} (hT : 0 < T) (hs : 0 < sigma) {l : List ℝ} (hl : ∀ t ∈ l, 0 < t)
    (h : rotationQ T sigma l = .ok q) : q = rotationSum T sigma l ∧ 0 < q := by
  unfold rotationQ at h
  split at h
  · rename_i t
    have ht := hl t (by simp)
    unfold rotationSum
    dsimp only
    split at h
    · rename_i h1
      cases h
      rw [if_pos h1, mul_one]
      exact ⟨rfl, by positivity⟩
    · rename_i h1
      split at h
      · cases h
      · cases h
        rw [if_neg h1]
        exact ⟨rfl, by positivity⟩
  · rename_i a b c
    have ha := hl a (by simp)
    have hb := hl b (by simp)
    have hc := hl c (by simp)
    cases h
    have hpi := Real.pi_pos
    rw [← Real.sqrt_eq_rpow, ← Real.sqrt_eq_rpow]
    exact ⟨rfl, by positivity⟩
  · cases h

theorem vibrationQ_log {T q : ℝ} (hT : 0 < T) {l : List ℝ} (hl : ∀ t ∈ l, 0 < t) (h : vibrationQ T l = .ok q) :
    Real.log q = -vibrationFree T l - (if l.length = 1 then zeroPoint l / T else 0) ∧ 0 < q := by
  unfold vibrationQ at h
  split at h
  · rename_i t
    cases h
    have hp := exp_term_pos hT (hl t (by simp))
    refine ⟨?_, div_pos (Real.exp_pos _) hp⟩
    rw [Real.log_div (Real.exp_pos _).ne' hp.ne', Real.log_exp]
    simp only [vibrationFree, zeroPoint, List.map_cons, List.map_nil, List.sum_cons, List.sum_nil, List.length_cons,
      List.length_nil, if_true]
    field_simp
    ring
  · cases h
  · rename_i a b r
    have h' := Except.ok.inj h
    subst h'
    have key : ∀ (l : List ℝ) (x : ℝ), 0 < x → (∀ t ∈ l, 0 < t) →
        Real.log (l.foldl (fun x y => x * (1 / (1 - Real.exp (-y / T)))) x) = Real.log x - vibrationFree T l ∧
        0 < l.foldl (fun x y => x * (1 / (1 - Real.exp (-y / T)))) x := by
      intro l
      induction l with
      | nil => intro x hx _; exact ⟨by simp [vibrationFree], hx⟩
      | cons t l ih =>
        intro x hx ht
        have hp := exp_term_pos hT (ht t (by simp))
        obtain ⟨h1, h2⟩ := ih (x * (1 / (1 - Real.exp (-t / T)))) (mul_pos hx (one_div_pos.mpr hp)) (fun s hs => ht s (by simp [hs]))
        refine ⟨?_, h2⟩
        rw [List.foldl_cons, h1, Real.log_mul hx.ne' (one_div_pos.mpr hp).ne', one_div, Real.log_inv]
        simp only [vibrationFree, List.map_cons, List.sum_cons]
        ring
    have hp := exp_term_pos hT (hl a (by simp))
    obtain ⟨h1, h2⟩ := key (b :: r) _ (one_div_pos.mpr hp) (fun t ht => hl t (by simp at ht ⊢; tauto))
    refine ⟨?_, h2⟩
    rw [h1, if_neg (by simp), one_div, Real.log_inv]
    simp only [vibrationFree, List.map_cons, List.sum_cons]
    ring

/-! ## C84 -/

/-- Whenever the entropy correction of a gas of the data base has a value, it is the free energy of
the ideal gas; the ground state energy is added for gases with one vibration and left out for the
others. -/
theorem C84_value {name : Str} {f : Formula} {sigma m : ℚ} {rot vib : List ℚ}
    (h : InDatabase name f sigma rot vib m) (P : Dict Str ℝ) (T p g : ℝ) (hT : 0 < T) (hp : 0 < p)
    (e : entropyCorrection P T (some p) name = .ok g) :
    g = idealGas T p sigma m (rot.map (↑)) (vib.map (↑)) +
      (if vib.length = 1 then boltzmannEV * zeroPoint (vib.map (↑)) else 0) := by
  obtain ⟨r1, r2, r3⟩ := rotationTable_pos _ (mem_of_get? h.rotation)
  obtain ⟨v1, v2⟩ := vibrationTable_pos _ (mem_of_get? h.vibration)
  have hm : (0 : ℝ) < m := by exact_mod_cast db_mass h
  cases hr : rotationQ T sigma (rot.map (↑)) with
  | error x => rw [entropyCorrection_error h P T p hT hp.ne' hr] at e; cases e
  | ok qr =>
    cases hv : vibrationQ T (vib.map (↑)) with
    | error x => rw [entropyCorrection_error' h P T p hT hp.ne' hr hv] at e; cases e
    | ok qv =>
      rw [entropyCorrection_db h P T p hT hp.ne' hr hv] at e
      obtain ⟨er, pr⟩ := rotationQ_sum hT (by exact_mod_cast r1)
        (by intro t ht; obtain ⟨x, hx, rfl⟩ := List.mem_map.mp ht; exact_mod_cast r2 x hx) hr
      obtain ⟨ev, pv⟩ := vibrationQ_log hT
        (by intro t ht; obtain ⟨x, hx, rfl⟩ := List.mem_map.mp ht; exact_mod_cast v1 x hx) hv
      split at e
      · cases e
      · cases e
        have hk : 0 < kBJ := by unfold kBJ; norm_num
        have hh : 0 < hJ := by unfold hJ; norm_num
        have ha : 0 < amu := by unfold amu; norm_num
        have hpi := Real.pi_pos
        have hc : 0 < 2 * Real.pi * (amu * (m : ℝ)) * kBJ * T := by positivity
        have hw : Real.log ((2 * Real.pi * (amu * (m : ℝ)) * kBJ * T / hJ ^ 2) ^ (3 / 2 : ℝ)) =
            -(3 * Real.log (waveLength m T)) := by
          have hsq : 0 < √(2 * Real.pi * (amu * (m : ℝ)) * kBJ * T) := Real.sqrt_pos.2 hc
          rw [Real.log_rpow (by positivity), Real.log_div hc.ne' (by positivity), Real.log_pow]
          have : waveLength m T = hJ / √(2 * Real.pi * (amu * (m : ℝ)) * kBJ * T) := rfl
          rw [this, Real.log_div hh.ne' hsq.ne', Real.log_sqrt hc.le]
          push_cast
          ring
        have hV : 0 < kBJ * T / p := by positivity
        have hW : 0 < (2 * Real.pi * (amu * (m : ℝ)) * kBJ * T / hJ ^ 2) ^ (3 / 2 : ℝ) := by positivity
        rw [Real.log_mul (by positivity) pv.ne', Real.log_mul (by positivity) pr.ne', Real.log_mul hV.ne' hW.ne', hw, ev, er]
        have e1 : kBeV = boltzmannEV := rfl
        have e2 : kBJ = boltzmann := rfl
        simp only [idealGas, e1, e2, List.length_map]
        split
        · field_simp
          ring
        · ring

/-- Carbon dioxide as an entry of the data base. -/
def fCO2 : Formula := ⟨str! "CO2_g", 1, str! "CO2", 1, str! "g", str! "CO2_g"⟩

theorem db_CO2 : InDatabase (str! "CO2_g") fCO2 2 [33 / 50] [954, 1890, 3360] (440095 / 10000) :=
  ⟨by decide, by decide, by decide +kernel, by decide +kernel, by decide +kernel⟩

theorem value_CO (p : ℝ) (hp : 0 < p) : ∃ g, entropyCorrection [] 450 (some p) (str! "CO_g") = .ok g :=
  C67_defined_partial db_CO [] 450 p (by norm_num) hp (by
    intro _ t ht; simp only [List.mem_singleton] at ht; subst ht; norm_num)

theorem value_CO2 (p : ℝ) (hp : 0 < p) : ∃ g, entropyCorrection [] 450 (some p) (str! "CO2_g") = .ok g :=
  C67_defined_partial db_CO2 [] 450 p (by norm_num) hp (by
    intro _ t ht; simp only [List.mem_singleton] at ht; subst ht; norm_num)

example : ∃ g, entropyCorrection [] 450 (some 101325) (str! "CO2_g") = .ok g ∧
    g = idealGas 450 101325 2 (440095 / 10000) [33 / 50] [954, 1890, 3360] := by
  obtain ⟨g, hg⟩ := value_CO2 101325 (by norm_num)
  refine ⟨g, hg, ?_⟩
  have h := C84_value db_CO2 [] 450 101325 g (by norm_num) (by norm_num) hg
  rw [if_neg (by decide), add_zero] at h
  push_cast [List.map_cons, List.map_nil] at h
  exact h

/-- The energies of different gases are not counted from the same level: there is no share of the
ground state energy that is contained in the correction of every gas. -/
theorem C84_ground_state_refuted :
    ¬ ∃ c : ℝ, ∀ (name : Str) (f : Formula) (sigma m : ℚ) (rot vib : List ℚ), InDatabase name f sigma rot vib m →
      ∀ T p g : ℝ, 0 < T → 0 < p → entropyCorrection [] T (some p) name = .ok g →
        g = idealGas T p sigma m (rot.map (↑)) (vib.map (↑)) + c * (boltzmannEV * zeroPoint (vib.map (↑))) := by
  rintro ⟨c, hc⟩
  have hb : boltzmannEV ≠ 0 := by unfold boltzmannEV; norm_num
  obtain ⟨g1, e1⟩ := value_CO 1 (by norm_num)
  obtain ⟨g2, e2⟩ := value_CO2 1 (by norm_num)
  have a1 := hc _ _ _ _ _ _ db_CO 450 1 g1 (by norm_num) (by norm_num) e1
  have a2 := hc _ _ _ _ _ _ db_CO2 450 1 g2 (by norm_num) (by norm_num) e2
  have b1 := C84_value db_CO [] 450 1 g1 (by norm_num) (by norm_num) e1
  have b2 := C84_value db_CO2 [] 450 1 g2 (by norm_num) (by norm_num) e2
  rw [if_pos (by decide)] at b1
  rw [if_neg (by decide)] at b2
  have z1 : zeroPoint (List.map (fun x : ℚ => (x : ℝ)) [3120]) = 1560 := by
    simp only [zeroPoint, List.map_cons, List.map_nil, List.sum_cons, List.sum_nil]; norm_num
  have z2 : zeroPoint (List.map (fun x : ℚ => (x : ℝ)) [954, 1890, 3360]) = 3102 := by
    simp only [zeroPoint, List.map_cons, List.map_nil, List.sum_cons, List.sum_nil]; norm_num
  rw [z1] at a1 b1
  rw [z2] at a2
  rw [b1] at a1
  rw [b2] at a2
  have h1 : c * (boltzmannEV * 1560) = boltzmannEV * 1560 := by linarith
  have h2 : c * (boltzmannEV * 3102) = 0 := by linarith
  have h3 : c = 0 := by
    rcases mul_eq_zero.1 h2 with h | h
    · exact h
    · exact absurd h (mul_ne_zero hb (by norm_num))
  rw [h3, zero_mul] at h1
  exact mul_ne_zero hb (by norm_num) h1.symm

/-- The number of vibrations of a molecule of `n` atoms. -/
def vibrations (n : Nat) (linear : Bool) : Nat := if linear then 3 * n - 5 else 3 * n - 6

/-- The number of vibrations of a gas of the rotation table, from its formula. -/
def gasVibrations (e : Str × ℚ × List ℚ) : Option Nat :=
  match chemFormula e.1 with
  | .error _ => none
  | .ok f => match string2symbols f.species with
    | .error _ => none
    | .ok l => some (vibrations l.length (e.2.2.length = 1))

/-- All vibrations are counted for the gases with one vibration and for water; for every other gas of
both tables fewer than there are. -/
theorem C84_vibrations_partial (e : Str × ℚ × List ℚ) (he : e ∈ rotationTable) (vib : List ℚ)
    (hv : get? vibrationTable e.1 = some vib) :
    ∃ n, gasVibrations e = some n ∧ vib.length ≤ n ∧ (vib.length = n ↔ vib.length = 1 ∨ e.1 = str! "H2O_g") := by
  have h : ∀ e ∈ rotationTable, (match get? vibrationTable e.1, gasVibrations e with
      | some v, some n => decide (v.length ≤ n ∧ (v.length = n ↔ v.length = 1 ∨ e.1 = str! "H2O_g"))
      | none, _ => true
      | _, _ => false) = true := by decide +kernel
  have h1 := h e he
  rw [hv] at h1
  cases hn : gasVibrations e with
  | none => rw [hn] at h1; cases h1
  | some n =>
    rw [hn] at h1
    exact ⟨n, rfl, of_decide_eq_true h1⟩

/-- Methane has nine vibrations, four are counted: each of the degenerate ones only once. -/
theorem C84_vibrations_refuted : ∃ e ∈ rotationTable, e.1 = str! "CH4_g" ∧ gasVibrations e = some 9 ∧
    ∃ vib, get? vibrationTable e.1 = some vib ∧ vib.length = 4 :=
  ⟨(str! "CH4_g", (12, [38 / 5, 38 / 5, 38 / 5])), by decide +kernel, by decide +kernel, by decide +kernel,
    [1870, 2180, 4170, 4320], by decide +kernel, by decide +kernel⟩

end Verif
