import Verif.Model.Thermo
import Verif.Props.Energy
import Mathlib.Tactic.FieldSimp
/-
Theorems about the gas corrections: C15 (coefficients), C67 (pressure dependence and domain of
the entropy correction).
-/
namespace Verif
open Dict

/-! ## C67 entropy correction -/

/-- A gas name of the data base. -/
structure InDatabase (name : Str) (f : Formula) (sigma : ℚ) (rot vib : List ℚ) (m : ℚ) : Prop where
  parse : chemFormula name = .ok f
  gas : f.type = .gas
  rotation : get? rotationTable f.speciesSite = some (sigma, rot)
  vibration : get? vibrationTable f.speciesSite = some vib
  mass : molecularMass f.species = .ok m

theorem entropyCorrection_db {name : Str} {f : Formula} {sigma m : ℚ} {rot vib : List ℚ}
    (h : InDatabase name f sigma rot vib m) (P : Dict Str ℝ) (T p : ℝ) (hT : 0 < T) (hp : p ≠ 0)
    {qr qv : ℝ} (hr : rotationQ T sigma (rot.map (↑)) = .ok qr) (hv : vibrationQ T (vib.map (↑)) = .ok qv) :
    entropyCorrection P T (some p) name =
      (open Classical in
      if kBJ * T / p * (2 * Real.pi * (amu * (m : ℝ)) * kBJ * T / hJ ^ 2) ^ (3 / 2 : ℝ) * qr * qv ≤ 0 then
        .error .ValueError
      else .ok (-kBeV * T * Real.log
        (kBJ * T / p * (2 * Real.pi * (amu * (m : ℝ)) * kBJ * T / hJ ^ 2) ^ (3 / 2 : ℝ) * qr * qv))) := by
  unfold entropyCorrection
  simp only [h.parse, bind, Except.bind, h.gas, ne_eq, not_true_eq_false, if_false, h.rotation,
    h.vibration, h.mass, pure, Except.pure, hp, hT.ne', hr, hv]

theorem entropyCorrection_error {name : Str} {f : Formula} {sigma m : ℚ} {rot vib : List ℚ}
    (h : InDatabase name f sigma rot vib m) (P : Dict Str ℝ) (T p : ℝ) (hT : 0 < T) (hp : p ≠ 0)
    {e : PyErr} (hr : rotationQ T sigma (rot.map (↑)) = .error e) :
    entropyCorrection P T (some p) name = .error e := by
  unfold entropyCorrection
  simp only [h.parse, bind, Except.bind, h.gas, ne_eq, not_true_eq_false, if_false, h.rotation,
    h.vibration, h.mass, pure, Except.pure, hp, hT.ne', hr]

theorem entropyCorrection_error' {name : Str} {f : Formula} {sigma m : ℚ} {rot vib : List ℚ}
    (h : InDatabase name f sigma rot vib m) (P : Dict Str ℝ) (T p : ℝ) (hT : 0 < T) (hp : p ≠ 0)
    {e : PyErr} {qr : ℝ} (hr : rotationQ T sigma (rot.map (↑)) = .ok qr)
    (hv : vibrationQ T (vib.map (↑)) = .error e) :
    entropyCorrection P T (some p) name = .error e := by
  unfold entropyCorrection
  simp only [h.parse, bind, Except.bind, h.gas, ne_eq, not_true_eq_false, if_false, h.rotation,
    h.vibration, h.mass, pure, Except.pure, hp, hT.ne', hr, hv]

/-- The correction depends on the pressure as the chemical potential of an ideal gas:
`G(p2) - G(p1) = kB T ln(p2 / p1)`, for every gas of the data base. -/
theorem C67_pressure_dependence {name : Str} {f : Formula} {sigma m : ℚ} {rot vib : List ℚ}
    (h : InDatabase name f sigma rot vib m) (P : Dict Str ℝ) (T p1 p2 g1 g2 : ℝ) (hT : 0 < T)
    (h1 : 0 < p1) (h2 : 0 < p2) (e1 : entropyCorrection P T (some p1) name = .ok g1)
    (e2 : entropyCorrection P T (some p2) name = .ok g2) :
    g2 - g1 = kBeV * T * Real.log (p2 / p1) := by
  cases hr : rotationQ T sigma (rot.map (↑)) with
  | error e => rw [entropyCorrection_error h P T p1 hT h1.ne' hr] at e1; cases e1
  | ok qr =>
    cases hv : vibrationQ T (vib.map (↑)) with
    | error e => rw [entropyCorrection_error' h P T p1 hT h1.ne' hr hv] at e1; cases e1
    | ok qv =>
      rw [entropyCorrection_db h P T p1 hT h1.ne' hr hv] at e1
      rw [entropyCorrection_db h P T p2 hT h2.ne' hr hv] at e2
      generalize (2 * Real.pi * (amu * (m : ℝ)) * kBJ * T / hJ ^ 2) ^ (3 / 2 : ℝ) = w at e1 e2
      split at e1
      · cases e1
      · rename_i q1
        split at e2
        · cases e2
        · rename_i q2
          cases e1; cases e2
          push Not at q1 q2
          have r1 : kBJ * T / p1 * w * qr * qv = (kBJ * T * w * qr * qv) / p1 := by field_simp
          have r2 : kBJ * T / p2 * w * qr * qv = (kBJ * T * w * qr * qv) / p2 := by field_simp
          rw [r1] at q1 ⊢
          rw [r2] at q2 ⊢
          have hc : 0 < kBJ * T * w * qr * qv := by
            have := mul_pos q1 h1
            rwa [div_mul_cancel₀ _ h1.ne'] at this
          rw [Real.log_div hc.ne' h1.ne', Real.log_div hc.ne' h2.ne', Real.log_div h2.ne' h1.ne']
          ring

/-- Facts about every entry of the two tables. -/
theorem rotationTable_pos : ∀ e ∈ rotationTable, 0 < e.2.1 ∧ (∀ t ∈ e.2.2, 0 < t) ∧
    (e.2.2.length = 1 ∨ e.2.2.length = 3) := by decide +kernel

theorem vibrationTable_pos : ∀ e ∈ vibrationTable, (∀ t ∈ e.2, 0 < t) ∧ e.2 ≠ [] := by decide +kernel

theorem elementMass_pos {e : Str} {m : ℚ} (h : elementMass e = some m) : 0 < m := by
  unfold elementMass at h
  repeat' split at h
  all_goals first | cases h; norm_num | cases h

theorem sumMasses_pos {l : List Str} {acc m : ℚ} (h : sumMasses l acc = .ok m) : acc ≤ m ∧ (l ≠ [] → acc < m) := by
  induction l generalizing acc with
  | nil => simp only [sumMasses] at h; cases h; simp
  | cons e l ih =>
    simp only [sumMasses] at h
    cases he : elementMass e with
    | none => rw [he] at h; cases h
    | some x =>
      rw [he] at h
      have := (ih h).1
      have hx := elementMass_pos he
      refine ⟨by linarith, fun _ => by linarith⟩

/-- Every gas of both tables has a positive mass when it has one. -/
theorem db_mass_pos : ∀ e ∈ rotationTable, ∀ f, chemFormula e.1 = .ok f → string2symbols f.species ≠ .ok [] := by
  intro e he f hf
  have : ∀ e ∈ rotationTable, (match chemFormula e.1 with
    | .ok f => decide (string2symbols f.species ≠ .ok [])
    | .error _ => true) = true := by decide +kernel
  have := this e he
  rw [hf] at this
  simpa using this

theorem exp_term_pos {T t : ℝ} (hT : 0 < T) (ht : 0 < t) : 0 < 1 - Real.exp (-t / T) := by
  have : Real.exp (-t / T) < 1 := by
    rw [Real.exp_lt_one_iff]
    exact div_neg_of_neg_of_pos (by linarith) hT
  linarith

theorem vibrationQ_pos {T : ℝ} (hT : 0 < T) {l : List ℝ} (hl : ∀ t ∈ l, 0 < t) (hne : l ≠ []) :
    ∃ q, vibrationQ T l = .ok q ∧ 0 < q := by
  match l, hl, hne with
  | [t], hl, _ => exact ⟨_, rfl, div_pos (Real.exp_pos _) (exp_term_pos hT (hl t (by simp)))⟩
  | a :: b :: l, hl, _ =>
    refine ⟨_, rfl, ?_⟩
    have key : ∀ (l : List ℝ) (x : ℝ), 0 < x → (∀ t ∈ l, 0 < t) →
        0 < l.foldl (fun x y => x * (1 / (1 - Real.exp (-y / T)))) x := by
      intro l
      induction l with
      | nil => intro x hx _; exact hx
      | cons t l ih =>
        intro x hx ht
        exact ih _ (mul_pos hx (one_div_pos.mpr (exp_term_pos hT (ht t (by simp)))))
          (fun s hs => ht s (by simp [hs]))
    exact key _ _ (one_div_pos.mpr (exp_term_pos hT (hl a (by simp)))) (fun t ht => hl t (by simp at ht ⊢; tauto))

theorem rotationQ_pos {T sigma : ℝ} (hT : 0 < T) (hs : 0 < sigma) {l : List ℝ} (hl : ∀ t ∈ l, 0 < t)
    (hlen : l.length = 1 ∨ l.length = 3) (hlin : l.length = 1 → ∀ t ∈ l, t < 0.3 * T) :
    ∃ q, rotationQ T sigma l = .ok q ∧ 0 < q := by
  match l, hl, hlen, hlin with
  | [t], hl, _, hlin =>
    have ht := hl t (by simp)
    have h3 := hlin rfl t (by simp)
    unfold rotationQ
    dsimp only
    split
    · exact ⟨_, rfl, by positivity⟩
    · rw [if_neg]
      · exact ⟨_, rfl, by positivity⟩
      · rw [not_le, div_lt_iff₀ hT]; exact h3
  | [a, b, c], hl, _, _ =>
    have ha := hl a (by simp)
    have hb := hl b (by simp)
    have hc := hl c (by simp)
    refine ⟨_, rfl, ?_⟩
    have := Real.pi_pos
    positivity
  | [], _, hlen, _ => simp at hlen
  | [a, b], _, hlen, _ => simp at hlen
  | a :: b :: c :: d :: r, _, hlen, _ => simp at hlen

/-- The entropy correction has a value for every gas of the data base whose mass is known, every
positive temperature and pressure, as long as a linear molecule has rotational temperature below
`0.3 T`. -/
theorem C67_defined_partial {name : Str} {f : Formula} {sigma m : ℚ} {rot vib : List ℚ}
    (h : InDatabase name f sigma rot vib m)
    (P : Dict Str ℝ) (T p : ℝ) (hT : 0 < T) (hp : 0 < p)
    (hlin : rot.length = 1 → ∀ t ∈ rot, (t : ℝ) < 0.3 * T) :
    ∃ g, entropyCorrection P T (some p) name = .ok g := by
  have hr := mem_of_get? h.rotation
  have hv := mem_of_get? h.vibration
  obtain ⟨r1, r2, r3⟩ := rotationTable_pos _ hr
  obtain ⟨v1, v2⟩ := vibrationTable_pos _ hv
  have hm : 0 < m := by
    have h1 := h.mass
    unfold molecularMass at h1
    cases hs : string2symbols f.species with
    | error e => rw [hs] at h1; cases h1
    | ok l =>
      rw [hs] at h1
      refine (sumMasses_pos h1).2 ?_
      rintro rfl
      obtain ⟨ns, hg⟩ := good_of_chemFormula h.parse
      exact db_mass_pos _ hr _ hg.reparse hs
  obtain ⟨qr, hqr, pr⟩ := rotationQ_pos (sigma := sigma) (l := rot.map (↑)) hT (by exact_mod_cast r1)
    (by intro t ht; obtain ⟨x, hx, rfl⟩ := List.mem_map.mp ht; exact_mod_cast r2 x hx)
    (by simpa using r3)
    (by intro hl t ht; obtain ⟨x, hx, rfl⟩ := List.mem_map.mp ht; exact hlin (by simpa using hl) x hx)
  obtain ⟨qv, hqv, pv⟩ := vibrationQ_pos (l := vib.map (↑)) hT
    (by intro t ht; obtain ⟨x, hx, rfl⟩ := List.mem_map.mp ht; exact_mod_cast v1 x hx) (by simpa using v2)
  rw [entropyCorrection_db h P T p hT hp.ne' hqr hqv, if_neg]
  · exact ⟨_, rfl⟩
  · rw [not_le]
    have hk : 0 < kBJ := by unfold kBJ; norm_num
    have hh : 0 < hJ := by unfold hJ; norm_num
    have ha : 0 < amu := by unfold amu; norm_num
    have := Real.pi_pos
    have hm' : (0 : ℝ) < m := by exact_mod_cast hm
    positivity

/-- Hydrogen and carbon monoxide as entries of the data base. -/
def fH2 : Formula := ⟨str! "H2_g", 1, str! "H2", 1, str! "g", str! "H2_g"⟩
def fCO : Formula := ⟨str! "CO_g", 1, str! "CO", 1, str! "g", str! "CO_g"⟩
def fCO2x : Formula := ⟨str! "2CO_g", 2, str! "CO", 1, str! "g", str! "CO_g"⟩

theorem db_H2 : InDatabase (str! "H2_g") fH2 2 [175 / 2] [6320] (2 * 100794 / 100000) :=
  ⟨by decide, by decide, by decide +kernel, by decide +kernel, by decide +kernel⟩
theorem db_CO : InDatabase (str! "CO_g") fCO 1 [139 / 50] [3120] (280101 / 10000) :=
  ⟨by decide, by decide, by decide +kernel, by decide +kernel, by decide +kernel⟩
theorem db_2CO : InDatabase (str! "2CO_g") fCO2x 1 [139 / 50] [3120] (280101 / 10000) :=
  ⟨by decide, by decide, by decide +kernel, by decide +kernel, by decide +kernel⟩

example (p : ℝ) (hp : 0 < p) : ∃ g, entropyCorrection [] 450 (some p) (str! "CO_g") = .ok g :=
  C67_defined_partial db_CO [] 450 p (by norm_num) hp (by
    intro _ t ht; simp only [List.mem_singleton] at ht; subst ht; norm_num)

/-- Hydrogen below 291 K (rotational temperature above `0.3 T`): the code uses an attribute that
does not exist, for every pressure. -/
theorem C67_low_temperature_refuted (P : Dict Str ℝ) (T p : ℝ) (hT : 0 < T) (hT' : T ≤ 291) (hp : p ≠ 0) :
    entropyCorrection P T (some p) (str! "H2_g") = .error .AttributeError := by
  apply entropyCorrection_error db_H2 P T p hT hp
  unfold rotationQ
  simp only [List.map_cons, List.map_nil]
  have h1 : (0.3 : ℝ) ≤ ((175 / 2 : ℚ) : ℝ) / T := by
    rw [le_div_iff₀ hT]; push_cast; linarith
  rw [if_neg (by rw [not_le]; linarith), if_pos h1]

/-- Species that are not gases, and gases outside the data base, are not corrected; a pressure of
zero is an error. -/
theorem C67_not_corrected (P : Dict Str ℝ) (T : ℝ) (p? : Option ℝ) (name : Str) (f : Formula)
    (h : chemFormula name = .ok f)
    (hn : f.type ≠ .gas ∨ get? rotationTable f.speciesSite = none ∨ get? vibrationTable f.speciesSite = none) :
    entropyCorrection P T p? name = .ok 0 := by
  unfold entropyCorrection
  simp only [h, bind, Except.bind, pure, Except.pure]
  split
  · rfl
  · rename_i hg
    rcases hn with hn | hn | hn
    · exact absurd hn hg
    · rw [hn]
    · rw [hn]; cases get? rotationTable f.speciesSite <;> rfl

theorem C67_zero_pressure {name : Str} {f : Formula} {sigma m : ℚ} {rot vib : List ℚ}
    (h : InDatabase name f sigma rot vib m) (P : Dict Str ℝ) (T : ℝ) :
    entropyCorrection P T (some 0) name = .error .ZeroDivisionError := by
  unfold entropyCorrection
  simp only [h.parse, bind, Except.bind, h.gas, ne_eq, not_true_eq_false, if_false, h.rotation,
    h.vibration, h.mass, pure, Except.pure, if_true]

example : entropyCorrection [] 450 none (str! "CO_s") = .ok 0 :=
  C67_not_corrected [] 450 none _ ⟨str! "CO_s", 1, str! "CO", 1, str! "s", str! "CO_s"⟩ (by decide)
    (Or.inl (by decide))

/-! ## C15 coefficients -/

/-- The entropy correction of `2CO_g` is that of `CO_g`, not twice it: for any two different
pressures at 450 K the claim fails at one of them. -/
theorem C15_entropy_coefficient_refuted (P : Dict Str ℝ) (p1 p2 : ℝ) (h1 : 0 < p1) (h12 : p1 < p2) :
    ∃ p ∈ [p1, p2], ∃ g1 g2, entropyCorrection P 450 (some p) (str! "CO_g") = .ok g1 ∧
      entropyCorrection P 450 (some p) (str! "2CO_g") = .ok g2 ∧ g2 = g1 ∧ g2 ≠ 2 * g1 := by
  have hlin : ([139 / 50] : List ℚ).length = 1 → ∀ t ∈ ([139 / 50] : List ℚ), (t : ℝ) < 0.3 * 450 := by
    intro _ t ht; simp only [List.mem_singleton] at ht; subst ht; norm_num
  have same : ∀ p : ℝ, 0 < p → entropyCorrection P 450 (some p) (str! "2CO_g") =
      entropyCorrection P 450 (some p) (str! "CO_g") := by
    intro p hp
    obtain ⟨qr, hqr, -⟩ := rotationQ_pos (T := 450) (sigma := ((1 : ℚ) : ℝ)) (l := ([139 / 50] : List ℚ).map (↑))
      (by norm_num) (by norm_num) (by intro t ht; simp at ht; subst ht; norm_num) (by simp)
      (by intro _ t ht; simp at ht; subst ht; norm_num)
    obtain ⟨qv, hqv, -⟩ := vibrationQ_pos (T := 450) (l := ([3120] : List ℚ).map (↑))
      (by norm_num) (by intro t ht; simp at ht; subst ht; norm_num) (by simp)
    rw [entropyCorrection_db db_CO P 450 p (by norm_num) hp.ne' hqr hqv,
      entropyCorrection_db db_2CO P 450 p (by norm_num) hp.ne' hqr hqv]
  obtain ⟨g1, e1⟩ := C67_defined_partial db_CO P 450 p1 (by norm_num) h1 hlin
  obtain ⟨g2, e2⟩ := C67_defined_partial db_CO P 450 p2 (by norm_num) (h1.trans h12) hlin
  have hd := C67_pressure_dependence db_CO P 450 p1 p2 g1 g2 (by norm_num) h1 (h1.trans h12) e1 e2
  by_cases hz : g1 = 0
  · refine ⟨p2, by simp, g2, g2, e2, by rw [same p2 (h1.trans h12), e2], rfl, ?_⟩
    have : 0 < kBeV * 450 * Real.log (p2 / p1) := by
      have hk : 0 < kBeV := by unfold kBeV; norm_num
      have := Real.log_pos ((one_lt_div h1).mpr h12)
      positivity
    intro hh
    rw [← hd, hz] at this
    linarith
  · refine ⟨p1, by simp, g1, g1, e1, by rw [same p1 h1, e1], rfl, ?_⟩
    intro hh
    apply hz
    linarith

/-- A name that is not a key of the table gets no Shomate correction. -/
theorem shomateLoop_absent {table : List (Str × ℚ × ℚ × ShomateParams)} {name : Str} {T : ℝ}
    (h : ∀ e ∈ table, e.1 ≠ name) : shomateLoop table name T = 0 := by
  induction table with
  | nil => rfl
  | cons e t ih =>
    obtain ⟨k, a, b, p⟩ := e
    unfold shomateLoop
    rw [if_pos (h (k, a, b, p) (by simp)), ih (fun e he => h e (by simp [he]))]

/-- The Shomate correction of `nX_g` is 0 for every coefficient `n` written out, every gas and
temperature: a coefficient makes the name miss the table. -/
theorem C15_shomate_coefficient_ignored (T : ℝ) (n : Nat) (gas : Str)
    (f : Formula) (h : chemFormula (Nat.toDigits 10 n ++ gas) = .ok f) :
    shomateCorrection T (Nat.toDigits 10 n ++ gas) = .ok 0 := by
  unfold shomateCorrection
  rw [h]
  dsimp only
  split
  · rfl
  · rw [shomateLoop_absent]
    intro e he heq
    have hfirst : ∀ e ∈ shomateTable, (match e.1 with | c :: _ => isDigit c | [] => true) = false := by decide
    have := hfirst e he
    rw [heq] at this
    cases hd : Nat.toDigits 10 n with
    | nil => exact absurd hd (by simp)
    | cons c cs =>
      rw [hd] at this
      have hc : c ∈ Nat.toDigits 10 n := by rw [hd]; simp
      simp only [List.cons_append] at this
      have h2 := Nat.isDigit_of_mem_toDigits (by decide) (by decide) hc
      simp only [isDigit, Bool.and_eq_false_iff, decide_eq_false_iff_not] at this
      simp only [Char.isDigit, Bool.and_eq_true, decide_eq_true_eq] at h2
      rcases this with h3 | h3
      · exact h3 h2.1
      · exact h3 h2.2

/-- At 1000 K carbon monoxide has a non-zero Shomate correction, yet `2CO_g` gets 0. -/
theorem C15_shomate_coefficient_refuted :
    ∃ g1 g2, shomateCorrection 1000 (str! "CO_g") = .ok g1 ∧ shomateCorrection 1000 (str! "2CO_g") = .ok g2 ∧
      g1 ≠ 0 ∧ g2 = 0 ∧ g2 ≠ 2 * g1 := by
  have h1 : shomateCorrection 1000 (str! "CO_g") = .ok (shomateLoop shomateTable (str! "CO_g") 1000) := by
    unfold shomateCorrection
    rw [show chemFormula (str! "CO_g") = .ok fCO by decide]
    dsimp only
    rw [if_neg (by decide)]
  have h2 : shomateCorrection 1000 (str! "2CO_g") = .ok 0 :=
    C15_shomate_coefficient_ignored 1000 2 (str! "CO_g") fCO2x (by decide)
  have h3 : shomateLoop shomateTable (str! "CO_g") 1000 ≠ 0 := by
    unfold shomateTable
    simp only [shomateLoop, ne_eq, List.cons.injEq, Char.reduceEq, false_and, and_false, not_false_eq_true,
      if_true, not_true_eq_false, if_false, reduceCtorEq]
    rw [if_pos (by norm_num)]
    simp only [shomateInRange, shomateH, shomateS, shomateCp, kJmol2eV]
    norm_num
  exact ⟨_, _, h1, h2, h3, rfl, fun h => h3 (by linarith)⟩

/-- Formulas written without a coefficient are corrected once each. So a state in which every
formula is written without coefficient is corrected by the sum of coefficient times correction of
the species, as claimed. Missing: coefficients other than 1, see the refutations. -/
theorem C15_unit_coefficients_partial (corr : Str → Py ℝ) (c : Str → ℝ) (hc : Agrees c corr)
    (fs : List Formula) (h1 : ∀ f ∈ fs, f.text = f.speciesSite ∧ f.stoich = 1) (d : ℝ)
    (h : stateDelta corr fs 0 = .ok d) :
    d = (fs.map fun f => (f.stoich : ℝ) * c f.speciesSite).sum := by
  rw [stateDelta_ok hc h, zero_add]
  unfold specDelta
  congr 1
  apply List.map_congr_left
  intro f hf
  rw [(h1 f hf).1, (h1 f hf).2]
  simp

example : ∃ d, stateDelta (shomateCorrection 1000)
    [fCO, ⟨str! "*_s", 1, str! "*", 1, str! "s", str! "*_s"⟩] 0 = .ok d ∧
    ∀ f ∈ [fCO, ⟨str! "*_s", 1, str! "*", 1, str! "s", str! "*_s"⟩], f.text = f.speciesSite ∧ f.stoich = 1 := by
  obtain ⟨g1, -, e1, -⟩ := C15_shomate_coefficient_refuted
  have e2 : shomateCorrection 1000 (str! "*_s") = .ok 0 := by
    unfold shomateCorrection
    rw [show chemFormula (str! "*_s") = .ok ⟨str! "*_s", 1, str! "*", 1, str! "s", str! "*_s"⟩ by decide]
    dsimp only
    rw [if_pos (by decide)]
  have e1' : shomateCorrection 1000 fCO.text = .ok g1 := e1
  refine ⟨0 + g1 + 0, ?_, by decide⟩
  simp only [stateDelta, e1', e2, bind, Except.bind]

end Verif
