import Verif.Props.Thermo
import Mathlib.Analysis.SpecialFunctions.Log.Deriv
import Mathlib.Analysis.Calculus.Deriv.Inv
import Mathlib.Analysis.Calculus.Deriv.Pow
import Mathlib.MeasureTheory.Integral.IntervalIntegral.FundThmCalculus
/-
C83: the Shomate correction is a Gibbs energy. In the range of its parameters its derivative is
minus the entropy and the derivative of the entropy is the heat capacity over the temperature;
every gas of the data base is corrected up to its highest temperature, and above it not at all.
-/
namespace Verif
open Dict

/-! ## Specification -/

/-- The heat capacity (J/mol K) of a Shomate equation, as published with the data:
`A + B t + C t^2 + D t^3 + E / t^2` with `t` in units of 1000 K. -/
noncomputable def heatCapacity (p : ShomateParams) (T : ℝ) : ℝ :=
  p.A + p.B * (T / 1000) + p.C * (T / 1000) ^ 2 + p.D * (T / 1000) ^ 3 + p.E / (T / 1000) ^ 2

/-- The entropy (J/mol K), as published with the data. -/
noncomputable def entropyOf (p : ShomateParams) (T : ℝ) : ℝ :=
  p.A * Real.log (T / 1000) + p.B * (T / 1000) + p.C * (T / 1000) ^ 2 / 2 + p.D * (T / 1000) ^ 3 / 3
    - p.E / (2 * (T / 1000) ^ 2) + p.G

/-- `G` is a molar Gibbs energy at the temperature `T` with entropy `S` and heat capacity `c`
(in units of energy over temperature): `dG/dT = -S` and `dS/dT = c/T`. -/
structure GibbsAt (G S : ℝ → ℝ) (c : ℝ → ℝ) (T : ℝ) : Prop where
  energy : HasDerivAt G (-S T) T
  entropy : HasDerivAt S (c T / T) T

/-- J/mol K in eV/K. -/
noncomputable def eVperK : ℝ := 0.01036427 / 1000

/-! ## Derivatives -/

theorem hasDerivAt_shomateH (p : ShomateParams) {T : ℝ} (hT : T ≠ 0) :
    HasDerivAt (fun T => shomateH T p) (heatCapacity p T / 1000) T := by
  have ht : HasDerivAt (fun T : ℝ => T / 1000) (1 / 1000) T := (hasDerivAt_id T).div_const 1000
  have hne : T / 1000 ≠ 0 := div_ne_zero hT (by norm_num)
  have h := (((((ht.const_mul (p.A : ℝ)).add ((ht.pow 2).const_mul ((p.B : ℝ) / 2))).add
    ((ht.pow 3).const_mul ((p.C : ℝ) / 3))).add ((ht.pow 4).const_mul ((p.D : ℝ) / 4))).sub
    ((ht.inv hne).const_mul (p.E : ℝ)))
  have h2 := (h.add_const (p.F : ℝ)).sub_const (p.H : ℝ)
  refine (h2.congr_deriv ?_).congr_of_eventuallyEq (Filter.Eventually.of_forall fun x => ?_)
  · simp only [heatCapacity]
    field_simp
    norm_num
    ring
  · simp only [shomateH, Pi.add_apply, Pi.sub_apply, Pi.pow_apply, Pi.inv_apply, div_eq_mul_inv]

theorem hasDerivAt_shomateS (p : ShomateParams) {T : ℝ} (hT : T ≠ 0) :
    HasDerivAt (fun T => shomateS T p) (heatCapacity p T / T) T := by
  have ht : HasDerivAt (fun T : ℝ => T / 1000) (1 / 1000) T := (hasDerivAt_id T).div_const 1000
  have hne : T / 1000 ≠ 0 := div_ne_zero hT (by norm_num)
  have h2ne : 2 * (T / 1000) ^ 2 ≠ 0 := mul_ne_zero two_ne_zero (pow_ne_zero 2 hne)
  have h := (((((ht.log hne).const_mul (p.A : ℝ)).add (ht.const_mul (p.B : ℝ))).add
    ((ht.pow 2).const_mul ((p.C : ℝ) / 2))).add ((ht.pow 3).const_mul ((p.D : ℝ) / 3))).sub
    ((((ht.pow 2).const_mul (2 : ℝ)).inv h2ne).const_mul (p.E : ℝ))
  have h2 := h.add_const (p.G : ℝ)
  refine (h2.congr_deriv ?_).congr_of_eventuallyEq (Filter.Eventually.of_forall fun x => ?_)
  · simp only [heatCapacity, Pi.pow_apply]
    field_simp
    norm_num
    ring
  · simp only [shomateS, Pi.add_apply, Pi.sub_apply, Pi.pow_apply, Pi.inv_apply, div_eq_mul_inv]

theorem entropyOf_eq (p : ShomateParams) (T : ℝ) : entropyOf p T = shomateS T p := by
  simp only [entropyOf, shomateS]
  ring

/-- Within the range of its parameters. -/
theorem inRange_gibbs (p : ShomateParams) {T : ℝ} (hT : T ≠ 0) :
    GibbsAt (fun T => shomateInRange T p) (fun T => eVperK * entropyOf p T) (fun T => eVperK * heatCapacity p T) T := by
  have hS := hasDerivAt_shomateS p hT
  simp only [entropyOf_eq]
  refine ⟨?_, (hS.const_mul eVperK).congr_deriv (by ring)⟩
  have h := (((hasDerivAt_shomateH p hT).sub_const (shomateH 298.15 p)).const_add
      (298.15 * shomateCp 298.15 p / 1000)).mul_const kJmol2eV
  have h2 := h.sub ((hasDerivAt_id T).mul (hS.mul_const (kJmol2eV / 1000)))
  refine (h2.congr_deriv ?_).congr_of_eventuallyEq (Filter.Eventually.of_forall fun x => ?_)
  · simp only [eVperK, kJmol2eV, id]
    field_simp
    ring
  · simp only [shomateInRange, Pi.sub_apply, Pi.mul_apply, id]

theorem continuousOn_heatCapacity (p : ShomateParams) : ContinuousOn (heatCapacity p) (Set.Ioi 0) := by
  have hd : ContinuousOn (fun T : ℝ => T / 1000) (Set.Ioi 0) := continuousOn_id.div_const 1000
  have hne : ∀ T ∈ Set.Ioi (0 : ℝ), (T / 1000) ^ 2 ≠ 0 := fun T hT =>
    pow_ne_zero 2 (div_ne_zero (ne_of_gt hT) (by norm_num))
  exact (((continuousOn_const.add (continuousOn_const.mul hd)).add (continuousOn_const.mul (hd.pow 2))).add
    (continuousOn_const.mul (hd.pow 3))).add (continuousOn_const.div (hd.pow 2) hne)

theorem shomateH_sub (p : ShomateParams) {T : ℝ} (hT : 0 < T) :
    shomateH T p - shomateH 298.15 p = ∫ x in (298.15 : ℝ)..T, heatCapacity p x / 1000 := by
  have hpos : ∀ x ∈ Set.uIcc (298.15 : ℝ) T, 0 < x := fun x hx =>
    lt_of_lt_of_le (lt_min (by norm_num) hT) (Set.mem_uIcc.1 hx |>.elim (fun h => (min_le_left _ _).trans h.1)
      (fun h => (min_le_right _ _).trans h.1))
  refine (intervalIntegral.integral_eq_sub_of_hasDerivAt
    (fun x hx => hasDerivAt_shomateH p (hpos x hx).ne') ?_).symm
  exact (((continuousOn_heatCapacity p).div_const 1000).mono fun x hx => hpos x hx).intervalIntegrable

/-! ## Which entry is used -/

/-- The first entry of `name` in the table starts at `lo` or below. -/
def startsBelow (name : Str) (lo : ℚ) : List (Str × ℚ × ℚ × ShomateParams) → Bool
  | [] => true
  | e :: l => if e.1 = name then decide (e.2.1 ≤ lo) else startsBelow name lo l

/-- The ranges of each gas follow each other without gaps. -/
def noGaps : List (Str × ℚ × ℚ × ShomateParams) → Bool
  | [] => true
  | e :: l => startsBelow e.1 e.2.2.1 l && noGaps l

theorem shomateLoop_covered {name : Str} {T : ℝ} :
    ∀ (l : List (Str × ℚ × ℚ × ShomateParams)) (lo : ℚ), noGaps l = true → startsBelow name lo l = true →
    (lo < 300 ∨ (lo : ℝ) < T) → (∃ e ∈ l, e.1 = name ∧ T ≤ (e.2.2.1 : ℝ)) →
    ∃ e ∈ l, e.1 = name ∧
      (((e.2.1 : ℝ) ≤ T ∧ T ≤ (e.2.2.1 : ℝ) ∧ shomateLoop l name T = shomateInRange T e.2.2.2) ∨
       (T < (e.2.1 : ℝ) ∧ e.2.1 < 300 ∧ shomateLoop l name T = shomateBelow T e.2.1 e.2.2.2))
  | [], _, _, _, _, ⟨e, he, _⟩ => by simp at he
  | (key, tmin, tmax, p) :: l, lo, hg, hs, hlo, ⟨e, he, hn, hT⟩ => by
    simp only [noGaps, Bool.and_eq_true] at hg
    unfold shomateLoop
    by_cases hk : key = name
    · rw [if_neg (not_not.2 hk)]
      simp only [startsBelow, if_pos hk, decide_eq_true_eq] at hs
      by_cases hr : (tmin : ℝ) ≤ T ∧ T ≤ (tmax : ℝ)
      · exact ⟨_, List.mem_cons_self, hk, .inl ⟨hr.1, hr.2, by rw [if_pos hr]⟩⟩
      · rw [if_neg hr]
        by_cases hb : T < (tmin : ℝ) ∧ tmin < 300
        · exact ⟨_, List.mem_cons_self, hk, .inr ⟨hb.1, hb.2, by rw [if_pos hb]⟩⟩
        · rw [if_neg hb]
          have htop : (tmax : ℝ) < T := by
            by_contra hc
            have h1 : T < (tmin : ℝ) := by
              by_contra hm
              exact hr ⟨not_lt.1 hm, not_lt.1 hc⟩
            have h2 : ¬ tmin < 300 := fun h => hb ⟨h1, h⟩
            have h3 : ¬ (lo < 300) := fun h => h2 (lt_of_le_of_lt hs h)
            have h4 : (lo : ℝ) < T := hlo.resolve_left h3
            have h5 : (tmin : ℝ) ≤ lo := by exact_mod_cast hs
            linarith
          have he' : e ∈ l := by
            rcases List.mem_cons.1 he with rfl | h
            · exact absurd hT (not_le.2 htop)
            · exact h
          subst hk
          obtain ⟨e1, m1, k1, r1⟩ := shomateLoop_covered l tmax hg.2 hg.1 (.inr htop) ⟨e, he', hn, hT⟩
          exact ⟨e1, List.mem_cons_of_mem _ m1, k1, r1⟩
    · rw [if_pos hk]
      simp only [startsBelow, if_neg hk] at hs
      have he' : e ∈ l := by
        rcases List.mem_cons.1 he with rfl | h
        · exact absurd hn hk
        · exact h
      obtain ⟨e1, m1, k1, r1⟩ := shomateLoop_covered l lo hg.2 hs hlo ⟨e, he', hn, hT⟩
      exact ⟨e1, List.mem_cons_of_mem _ m1, k1, r1⟩

theorem shomateLoop_select {name : Str} {T : ℝ} :
    ∀ (l : List (Str × ℚ × ℚ × ShomateParams)),
    l.Pairwise (fun a b => a.1 = b.1 → a.2.2.1 ≤ b.2.1) → (∀ a ∈ l, a.2.1 < a.2.2.1) →
    ∀ e ∈ l, e.1 = name → (e.2.1 : ℝ) < T → T ≤ (e.2.2.1 : ℝ) → shomateLoop l name T = shomateInRange T e.2.2.2
  | [], _, _, e, he, _, _, _ => by simp at he
  | (key, tmin, tmax, p) :: l, hp, hr, e, he, hn, h1, h2 => by
    obtain ⟨hp1, hp2⟩ := List.pairwise_cons.1 hp
    unfold shomateLoop
    rcases List.mem_cons.1 he with rfl | he'
    · dsimp only at hn h1 h2 ⊢
      rw [if_neg (not_not.2 hn), if_pos ⟨h1.le, h2⟩]
    · have ih := shomateLoop_select l hp2 (fun a ha => hr a (List.mem_cons_of_mem _ ha)) e he' hn h1 h2
      by_cases hk : key = name
      · have h3 : tmax ≤ e.2.1 := hp1 e he' (hk.trans hn.symm)
        have h4 : tmin < tmax := hr _ List.mem_cons_self
        have h3' : (tmax : ℝ) ≤ e.2.1 := by exact_mod_cast h3
        have h4' : (tmin : ℝ) < tmax := by exact_mod_cast h4
        rw [if_neg (not_not.2 hk), if_neg (fun h => by linarith [h.2]), if_neg (fun h => by linarith [h.1]), ih]
      · rw [if_pos hk, ih]

theorem shomateLoop_above {name : Str} {T : ℝ} :
    ∀ (l : List (Str × ℚ × ℚ × ShomateParams)), (∀ a ∈ l, a.2.1 < a.2.2.1) →
    (∀ e ∈ l, e.1 = name → (e.2.2.1 : ℝ) < T) → shomateLoop l name T = 0
  | [], _, _ => rfl
  | (key, tmin, tmax, p) :: l, hr, h => by
    unfold shomateLoop
    have ih := shomateLoop_above l (fun a ha => hr a (List.mem_cons_of_mem _ ha))
      (fun e he => h e (List.mem_cons_of_mem _ he))
    by_cases hk : key = name
    · have h3 : (tmax : ℝ) < T := h _ List.mem_cons_self hk
      have h4 : tmin < tmax := hr _ List.mem_cons_self
      have h4' : (tmin : ℝ) < tmax := by exact_mod_cast h4
      rw [if_neg (not_not.2 hk), if_neg (fun h => by linarith [h.2]), if_neg (fun h => by linarith [h.1]), ih]
    · rw [if_pos hk, ih]

theorem table_ordered : shomateTable.Pairwise (fun a b => a.1 = b.1 → a.2.2.1 ≤ b.2.1) := by decide +kernel

theorem table_ranges : ∀ a ∈ shomateTable, a.2.1 < a.2.2.1 := by decide +kernel

theorem table_noGaps : noGaps shomateTable = true := by decide +kernel

theorem table_start : ∀ a ∈ shomateTable, startsBelow a.1 299 shomateTable = true := by decide +kernel

/-- Every gas of the table is the name of a gas. -/
theorem table_gas (a : Str × ℚ × ℚ × ShomateParams) (ha : a ∈ shomateTable) (T : ℝ) :
    shomateCorrection T a.1 = .ok (shomateLoop shomateTable a.1 T) := by
  have h : ∀ a ∈ shomateTable, (match chemFormula a.1 with | .ok f => decide (f.type = .gas) | .error _ => false) = true := by
    decide +kernel
  have h1 := h a ha
  unfold shomateCorrection
  cases hc : chemFormula a.1 with
  | error e => rw [hc] at h1; cases h1
  | ok f =>
    rw [hc] at h1
    dsimp only at h1 ⊢
    rw [if_neg (not_not.2 (of_decide_eq_true h1))]

/-! ## C83 -/

/-- Inside the range of every entry of the data base, the correction of its gas is a Gibbs energy
whose entropy and heat capacity are the published ones. -/
theorem C83_gibbs (e : Str × ℚ × ℚ × ShomateParams) (he : e ∈ shomateTable) (T : ℝ)
    (h1 : (e.2.1 : ℝ) < T) (h2 : T < (e.2.2.1 : ℝ)) :
    ∃ G : ℝ → ℝ, (∀ T, shomateCorrection T e.1 = .ok (G T)) ∧
      GibbsAt G (fun T => eVperK * entropyOf e.2.2.2 T) (fun T => eVperK * heatCapacity e.2.2.2 T) T := by
  refine ⟨fun T => shomateLoop shomateTable e.1 T, table_gas e he, ?_⟩
  have hpos : ∀ a ∈ shomateTable, 0 < a.2.1 := by decide +kernel
  have hT : T ≠ 0 := by
    have : (0 : ℝ) < e.2.1 := by exact_mod_cast hpos e he
    linarith
  have hg := inRange_gibbs e.2.2.2 hT
  refine ⟨hg.energy.congr_of_eventuallyEq ?_, hg.entropy⟩
  filter_upwards [Ioo_mem_nhds h1 h2] with x hx
  exact shomateLoop_select shomateTable table_ordered table_ranges e he rfl hx.1 hx.2.le

/-- The enthalpy that belongs to it is `298.15 Cp(298.15)` plus the heat taken up between 298.15 K and
the temperature. -/
theorem C83_enthalpy (e : Str × ℚ × ℚ × ShomateParams) (he : e ∈ shomateTable) (T : ℝ)
    (h1 : (e.2.1 : ℝ) < T) (h2 : T ≤ (e.2.2.1 : ℝ)) :
    ∃ g, shomateCorrection T e.1 = .ok g ∧
      g + T * (eVperK * entropyOf e.2.2.2 T) =
        eVperK * (298.15 * heatCapacity e.2.2.2 298.15 + ∫ x in (298.15 : ℝ)..T, heatCapacity e.2.2.2 x) := by
  refine ⟨_, table_gas e he T, ?_⟩
  rw [shomateLoop_select shomateTable table_ordered table_ranges e he rfl h1 h2]
  have hpos : ∀ a ∈ shomateTable, 0 < a.2.1 := by decide +kernel
  have hT : 0 < T := by
    have : (0 : ℝ) < e.2.1 := by exact_mod_cast hpos e he
    linarith
  have hH := shomateH_sub e.2.2.2 hT
  rw [intervalIntegral.integral_div] at hH
  have hH2 : (∫ x in (298.15 : ℝ)..T, heatCapacity e.2.2.2 x) = 1000 * (shomateH T e.2.2.2 - shomateH 298.15 e.2.2.2) := by
    rw [hH]; ring
  rw [hH2, entropyOf_eq]
  have hc : shomateCp 298.15 e.2.2.2 = heatCapacity e.2.2.2 298.15 := rfl
  simp only [shomateInRange, eVperK, kJmol2eV, hc]
  ring

/-- Every gas of the data base is corrected at every temperature up to the highest one it has data
for: with the entry whose range contains the temperature, or below the lowest range, which starts
below 300 K, with the heat capacity and entropy found there. -/
theorem C83_corrected (e : Str × ℚ × ℚ × ShomateParams) (he : e ∈ shomateTable) (T : ℝ) (h : T ≤ (e.2.2.1 : ℝ)) :
    ∃ e' ∈ shomateTable, e'.1 = e.1 ∧
      (((e'.2.1 : ℝ) ≤ T ∧ T ≤ (e'.2.2.1 : ℝ) ∧
          shomateCorrection T e.1 = .ok (shomateInRange T e'.2.2.2)) ∨
       (T < (e'.2.1 : ℝ) ∧ e'.2.1 < 300 ∧
          shomateCorrection T e.1 =
            .ok (eVperK * T * (heatCapacity e'.2.2.2 e'.2.1 - entropyOf e'.2.2.2 e'.2.1)))) := by
  obtain ⟨e', m, k, r⟩ := shomateLoop_covered shomateTable 299 table_noGaps (table_start e he) (.inl (by norm_num))
    ⟨e, he, rfl, h⟩
  refine ⟨e', m, k, ?_⟩
  rw [table_gas e he T]
  rcases r with ⟨a, b, c⟩ | ⟨a, b, c⟩
  · exact .inl ⟨a, b, by rw [c]⟩
  · refine .inr ⟨a, b, ?_⟩
    rw [c, entropyOf_eq]
    have hc : shomateCp e'.2.1 e'.2.2.2 = heatCapacity e'.2.2.2 e'.2.1 := rfl
    simp only [shomateBelow, eVperK, kJmol2eV, hc]
    congr 1
    ring

/-- Carbon monoxide between 1300 and 1600 K, an entry of the table. -/
def exHotCO : Str × ℚ × ℚ × ShomateParams :=
  (str! "CO_g", 1300, 1600, ⟨351507 / 10000, 260019 / 200000, -205921 / 1000000, 271 / 20000, -164139 / 50000, -10227 / 80, 28964 / 125, -1105271 / 10000⟩)

theorem exHotCO_mem : exHotCO ∈ shomateTable := by
  unfold shomateTable exHotCO
  simp only [List.mem_cons, true_or, or_true]

example : ∃ g, shomateCorrection 1400 (str! "CO_g") = .ok g ∧
    g + 1400 * (eVperK * entropyOf exHotCO.2.2.2 1400) =
      eVperK * (298.15 * heatCapacity exHotCO.2.2.2 298.15 + ∫ x in (298.15 : ℝ)..1400, heatCapacity exHotCO.2.2.2 x) :=
  C83_enthalpy exHotCO exHotCO_mem 1400 (by norm_num [exHotCO]) (by norm_num [exHotCO])

example : ((exHotCO.2.1 : ℚ) : ℝ) < 1400 ∧ (1400 : ℝ) < ((exHotCO.2.2.1 : ℚ) : ℝ) := by norm_num [exHotCO]

/-- The lower ranges of carbon monoxide and the extrapolation below 298 K. -/
example : ∃ e' ∈ shomateTable, e'.1 = str! "CO_g" ∧ (200 : ℝ) < (e'.2.1 : ℝ) ∧
    shomateCorrection 200 (str! "CO_g") =
      .ok (eVperK * 200 * (heatCapacity e'.2.2.2 e'.2.1 - entropyOf e'.2.2.2 e'.2.1)) := by
  obtain ⟨e', m, k, h | h⟩ := C83_corrected exHotCO exHotCO_mem 200 (by norm_num [exHotCO])
  · have hmin : ∀ a ∈ shomateTable, a.1 = str! "CO_g" → 298 ≤ a.2.1 := by decide +kernel
    have h1 : (298 : ℝ) ≤ e'.2.1 := by exact_mod_cast hmin e' m k
    exact absurd h.1 (by linarith)
  · exact ⟨e', m, k, h.1, h.2.2⟩

/-- Above the highest temperature there are data for, every gas is silently not corrected. -/
theorem C83_above (e : Str × ℚ × ℚ × ShomateParams) (he : e ∈ shomateTable) (T : ℝ)
    (h : ∀ e' ∈ shomateTable, e'.1 = e.1 → (e'.2.2.1 : ℝ) < T) : shomateCorrection T e.1 = .ok 0 := by
  rw [table_gas e he T, shomateLoop_above shomateTable table_ranges h]

/-- So a model heated past that temperature loses more than one electron volt per molecule at once,
with no error: at 1600 K carbon monoxide is corrected by less than -1 eV, at any higher temperature
by nothing. -/
theorem C83_above_refuted :
    (∃ g, shomateCorrection 1600 (str! "CO_g") = .ok g ∧ g < -1) ∧
    ∀ T : ℝ, 1600 < T → shomateCorrection T (str! "CO_g") = .ok 0 := by
  constructor
  · refine ⟨_, table_gas exHotCO exHotCO_mem 1600, ?_⟩
    rw [shomateLoop_select shomateTable table_ordered table_ranges exHotCO exHotCO_mem rfl
      (by norm_num [exHotCO]) (by norm_num [exHotCO])]
    have hlog : 0 ≤ Real.log (1600 / 1000 : ℝ) := Real.log_nonneg (by norm_num)
    norm_num at hlog
    simp only [exHotCO, shomateInRange, shomateH, shomateS, shomateCp, kJmol2eV]
    norm_num
    nlinarith [hlog]
  · intro T hT
    have hmax : ∀ a ∈ shomateTable, a.1 = str! "CO_g" → a.2.2.1 ≤ 1600 := by decide +kernel
    refine C83_above exHotCO exHotCO_mem T fun e' m k => ?_
    have : (e'.2.2.1 : ℝ) ≤ 1600 := by exact_mod_cast hmax e' m k
    linarith

end Verif
