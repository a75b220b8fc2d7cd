import Verif.Model.Rates
import Verif.Lemmas.Py
import Verif.Props.Thermo
/-
Theorems about rate constants: C16 (transition state theory), C17 (detailed balance), C19 (barrier
conversion), C20 (collision theory), C21 (pressures), C22 (own energies), C68 (missing energies).
-/
namespace Verif
open Dict

theorem kBeV_pos : 0 < kBeV := by unfold kBeV; norm_num
theorem heV_pos : 0 < heV := by unfold heV; norm_num
theorem kBJ_pos : 0 < kBJ := by unfold kBJ; norm_num
theorem amu_pos : 0 < amu := by unfold amu; norm_num
theorem P0_pos : 0 < P0 := by unfold P0; norm_num

theorem kTST_ok {Ga T k : ℝ} (hT : T ≠ 0) : kTST Ga T = .ok k ↔
    k = kBeV * T / heV * Real.exp (-Ga / (kBeV * T)) := by
  unfold kTST
  rw [if_neg hT]
  exact ⟨fun h => by cases h; rfl, fun h => by rw [h]⟩

/-! ## C16 -/

/-- A rate constant exists for every barrier and non-zero temperature (at zero temperature the
division fails), is positive for positive temperature, equals the prefactor `kB T / h` at zero
barrier and is strictly decreasing in the barrier. -/
theorem C16_positive_decreasing (T : ℝ) (hT : 0 < T) (Ga : ℝ) :
    ∃ k, kTST Ga T = .ok k ∧ 0 < k ∧ (Ga = 0 → k = kBeV * T / heV) ∧
      ∀ Ga', Ga < Ga' → ∃ k', kTST Ga' T = .ok k' ∧ k' < k := by
  have hk := kBeV_pos
  have hh := heV_pos
  refine ⟨_, (kTST_ok hT.ne').mpr rfl, by positivity, ?_, ?_⟩
  · rintro rfl; simp
  · intro Ga' hlt
    refine ⟨_, (kTST_ok hT.ne').mpr rfl, ?_⟩
    apply mul_lt_mul_of_pos_left _ (by positivity)
    rw [Real.exp_lt_exp]
    exact (div_lt_div_iff_of_pos_right (by positivity)).mpr (by linarith)

/-- For non-negative barriers the rate constant is strictly increasing in temperature. -/
theorem C16_increasing_in_temperature (Ga T T' k k' : ℝ) (hG : 0 ≤ Ga) (hT : 0 < T) (hTT : T < T')
    (h : kTST Ga T = .ok k) (h' : kTST Ga T' = .ok k') : k < k' := by
  have hk := kBeV_pos
  have hh := heV_pos
  have hT' : 0 < T' := hT.trans hTT
  rw [(kTST_ok hT.ne').mp h, (kTST_ok hT'.ne').mp h']
  have h1 : kBeV * T / heV < kBeV * T' / heV :=
    (div_lt_div_iff_of_pos_right hh).mpr (mul_lt_mul_of_pos_left hTT hk)
  have h2 : Real.exp (-Ga / (kBeV * T)) ≤ Real.exp (-Ga / (kBeV * T')) := by
    rw [Real.exp_le_exp, neg_div, neg_div, neg_le_neg_iff]
    exact div_le_div_of_nonneg_left hG (by positivity) (mul_le_mul_of_nonneg_left hTT.le hk.le)
  exact mul_lt_mul h1 h2 (Real.exp_pos _) (by positivity)

theorem C16_zero_temperature (Ga : ℝ) : kTST Ga 0 = .error .ZeroDivisionError := by
  unfold kTST; rw [if_pos rfl]

/-- A barrier of 0.7 eV at 450 and 500 K. -/
example : ∃ k k', kTST 0.7 450 = .ok k ∧ kTST 0.7 500 = .ok k' ∧ 0 < k ∧ k < k' := by
  obtain ⟨k, h, hp, -⟩ := C16_positive_decreasing 450 (by norm_num) 0.7
  obtain ⟨k', h', -⟩ := C16_positive_decreasing 500 (by norm_num) 0.7
  exact ⟨k, k', h, h', hp, C16_increasing_in_temperature _ _ _ _ _ (by norm_num) (by norm_num) (by norm_num) h h'⟩

/-! ## C17 -/

theorem relOf_ok {K : Type} {rxns : List Str} {rel : RelDict K} {rxn : Str} {v : Rel1 K} :
    relOf rxns rel rxn = .ok v ↔ rxn ∈ rxns ∧ ∃ gaf gar dg, rel.gaf = some gaf ∧ rel.gar = some gar ∧
      rel.dg = some dg ∧ gaf[rxns.idxOf rxn]? = some v.gaf ∧ gar[rxns.idxOf rxn]? = some v.gar ∧
      dg[rxns.idxOf rxn]? = some v.dg := by
  have he : ∀ (l : Option (List K)) (i : Nat) (x : K), entryAt l i = .ok x ↔ ∃ k, l = some k ∧ k[i]? = some x := by
    intro l i x
    unfold entryAt
    cases l with
    | none => simp
    | some l => cases h : l[i]? <;> simp [h]
  unfold relOf
  rw [guard_ok]
  simp only [bind_ok, he, pure_ok, not_not]
  constructor
  · rintro ⟨h0, a, ⟨l1, e1, f1⟩, b, ⟨l2, e2, f2⟩, c, ⟨l3, e3, f3⟩, rfl⟩
    exact ⟨h0, l1, l2, l3, e1, e2, e3, f1, f2, f3⟩
  · rintro ⟨h0, l1, l2, l3, e1, e2, e3, f1, f2, f3⟩
    exact ⟨h0, _, ⟨l1, e1, f1⟩, _, ⟨l2, e2, f2⟩, _, ⟨l3, e3, f3⟩, rfl⟩

theorem ratesTST_ok {o : RateOwner} {rel : RelDict ℝ} {rxn : Str} {k : ℝ × ℝ} :
    ratesTST o rel false rxn = .ok k ↔ ∃ v, relOf o.rxns rel rxn = .ok v ∧
      kTST v.gaf o.T = .ok k.1 ∧ kTST v.gar o.T = .ok k.2 := by
  unfold ratesTST
  simp only [bind_ok, Bool.false_eq_true, if_false, pure_ok]
  constructor
  · rintro ⟨v, h1, a, h2, b, h3, rfl⟩; exact ⟨v, h1, h2, h3⟩
  · rintro ⟨v, h1, h2, h3⟩; exact ⟨v, h1, k.1, h2, k.2, h3, rfl⟩

/-- Detailed balance: for energies with `Gaf - Gar = dG` the ratio of the rate constants of a
reaction is the equilibrium constant `exp (-dG / (kB T))`, and both are positive. -/
theorem C17_detailed_balance (o : RateOwner) (rel : RelDict ℝ) (rxn : Str) (kf kr : ℝ) (v : Rel1 ℝ)
    (hT : 0 < o.T) (hv : relOf o.rxns rel rxn = .ok v) (hc : v.gaf - v.gar = v.dg)
    (h : ratesTST o rel false rxn = .ok (kf, kr)) :
    0 < kf ∧ 0 < kr ∧ kf / kr = Real.exp (-v.dg / (kBeV * o.T)) := by
  obtain ⟨w, hw, h1, h2⟩ := ratesTST_ok.mp h
  rw [hv] at hw; cases hw
  have hk := kBeV_pos
  have hh := heV_pos
  dsimp only at h1 h2
  rw [(kTST_ok hT.ne').mp h1, (kTST_ok hT.ne').mp h2]
  refine ⟨by positivity, by positivity, ?_⟩
  rw [mul_div_mul_left _ _ (by positivity), ← Real.exp_sub]
  congr 1
  rw [← hc]
  ring

/-- The energies that `AbsoluteEnergyParser` and `RelativeEnergyParser` produce satisfy the
hypothesis, so detailed balance holds for every reaction of a model read from absolute energies. -/
theorem C17_from_absolute_energies (E : Dict Str ℝ) (o : RateOwner) (r : Rel ℝ) (hT : 0 < o.T)
    (hr : relativeFromAbsolute (some E) o.rxns = .ok r) (rxn : Str) (hx : rxn ∈ o.rxns) :
    ∃ v kf kr, singleRelative E rxn = .ok v ∧
      ratesTST o ⟨some r.gaf, some r.gar, some r.dg⟩ false rxn = .ok (kf, kr) ∧
      kf / kr = Real.exp (-v.dg / (kBeV * o.T)) := by
  obtain ⟨l1, l2, l3, hi⟩ := C12_lists E o.rxns r hr
  have hlt : o.rxns.idxOf rxn < o.rxns.length := List.idxOf_lt_length_of_mem hx
  obtain ⟨v, hv, e1, e2, e3⟩ := hi _ hlt
  rw [List.getElem_idxOf] at hv
  have hrel : relOf o.rxns ⟨some r.gaf, some r.gar, some r.dg⟩ rxn = .ok v :=
    relOf_ok.mpr ⟨hx, _, _, _, rfl, rfl, rfl, e1, e2, e3⟩
  obtain ⟨kf, h1, -⟩ := C16_positive_decreasing o.T hT v.gaf
  obtain ⟨kr, h2, -⟩ := C16_positive_decreasing o.T hT v.gar
  have h := ratesTST_ok (k := (kf, kr)).mpr ⟨v, hrel, h1, h2⟩
  obtain ⟨G, hG⟩ := exists_extends E
  obtain ⟨-, -, -, -, -, -, hc, -⟩ := C12_single_reaction E G hG _ _ hv
  exact ⟨v, kf, kr, hv, h, (C17_detailed_balance o _ rxn kf kr v hT hrel hc h).2.2⟩

/-- The example of `C12`: table with integer energies read as reals. -/
example : let rxns := [str! "CO_g + *_s -> CO_s"]
    ∃ kf kr, ratesTST ⟨rxns, 450, [], 0, 0, false⟩ ⟨some [0], some [2], some [-2]⟩ false (str! "CO_g + *_s -> CO_s")
      = .ok (kf, kr) ∧ kf / kr = Real.exp (- -2 / (kBeV * 450)) := by
  obtain ⟨kf, h1, -⟩ := C16_positive_decreasing 450 (by norm_num) 0
  obtain ⟨kr, h2, -⟩ := C16_positive_decreasing 450 (by norm_num) 2
  have hrel : relOf [str! "CO_g + *_s -> CO_s"] ⟨some [0], some [2], some [-2]⟩ (str! "CO_g + *_s -> CO_s")
      = .ok (⟨0, 2, -2⟩ : Rel1 ℝ) := relOf_ok.mpr ⟨by simp, _, _, _, rfl, rfl, rfl, by simp⟩
  have h := ratesTST_ok (o := ⟨[str! "CO_g + *_s -> CO_s"], 450, [], 0, 0, false⟩) (k := (kf, kr)).mpr ⟨_, hrel, h1, h2⟩
  exact ⟨kf, kr, h, (C17_detailed_balance _ _ _ _ _ _ (by norm_num) hrel (by norm_num) h).2.2⟩

/-! ## C19 -/

/-- The barrier computed from a positive rate constant gives back the rate constant. -/
theorem C19_rate_of_barrier (k T : ℝ) (hk : 0 < k) (hT : 0 < T) :
    ∃ Ga, barrierFromCT k T = .ok Ga ∧ kTST Ga T = .ok k := by
  have h1 := kBeV_pos
  have h2 := heV_pos
  have hp : 0 < k * heV / (kBeV * T) := by positivity
  unfold barrierFromCT
  rw [if_neg hT.ne', if_neg (not_le.mpr hp)]
  refine ⟨_, rfl, (kTST_ok hT.ne').mpr ?_⟩
  have : -(-Real.log (k * heV / (kBeV * T)) * (kBeV * T)) / (kBeV * T) = Real.log (k * heV / (kBeV * T)) := by
    field_simp
  rw [this, Real.exp_log hp]
  field_simp

/-- The rate constant of a barrier gives back the barrier. -/
theorem C19_barrier_of_rate (Ga T : ℝ) (hT : 0 < T) :
    ∃ k, kTST Ga T = .ok k ∧ barrierFromCT k T = .ok Ga := by
  have h1 := kBeV_pos
  have h2 := heV_pos
  refine ⟨_, (kTST_ok hT.ne').mpr rfl, ?_⟩
  have he : kBeV * T / heV * Real.exp (-Ga / (kBeV * T)) * heV / (kBeV * T) = Real.exp (-Ga / (kBeV * T)) := by
    field_simp
  unfold barrierFromCT
  rw [if_neg hT.ne', he, if_neg (not_le.mpr (Real.exp_pos _)), Real.log_exp]
  congr 1
  field_simp

/-- Rates that are not positive have no barrier. -/
theorem C19_no_barrier (k T : ℝ) (hk : k ≤ 0) (hT : 0 < T) : barrierFromCT k T = .error .ValueError := by
  have h1 := kBeV_pos
  have h2 := heV_pos
  unfold barrierFromCT
  rw [if_neg hT.ne', if_pos]
  apply div_nonpos_of_nonpos_of_nonneg _ (by positivity)
  exact mul_nonpos_of_nonpos_of_nonneg hk h2.le

example : ∃ Ga, barrierFromCT 1000 450 = .ok Ga ∧ kTST Ga 450 = .ok 1000 :=
  C19_rate_of_barrier _ _ (by norm_num) (by norm_num)

/-! ## C20 -/

/-- Ratios and factors above one are rejected, whatever the other arguments. -/
theorem C20_guard (Ea Auc act m T p f : ℝ) (h : 1 < act ∨ 1 < f) :
    kCT Ea Auc act m T p f = .error .ParameterError := by
  unfold kCT
  by_cases h1 : act > 1
  · rw [if_pos h1]
  · rw [if_neg h1, if_pos (h.resolve_left h1)]

/-- In the physical range the collision rate constant exists, is positive, is at most the rate of
collisions with the unit cell when the barrier is not negative, and is proportional to the
pressure. -/
theorem C20_bounded (Ea Auc act m T p f : ℝ) (hA : 0 < Auc) (ha : 0 < act) (ha1 : act ≤ 1) (hm : 0 < m)
    (hT : 0 < T) (hp : 0 < p) (hf : 0 < f) (hf1 : f ≤ 1) :
    ∃ k, kCT Ea Auc act m T p f = .ok k ∧ 0 < k ∧
      (0 ≤ Ea → k ≤ p * Auc / Real.sqrt (2 * Real.pi * m * kBJ * T)) ∧
      (∀ c, kCT Ea Auc act m T (c * p) f = .ok (c * k)) := by
  have h1 := kBeV_pos
  have h2 := kBJ_pos
  have h3 := Real.pi_pos
  have hq : 0 < 2 * Real.pi * m * kBJ * T := by positivity
  have hs : 0 < Real.sqrt (2 * Real.pi * m * kBJ * T) := Real.sqrt_pos.mpr hq
  have key : ∀ p, kCT Ea Auc act m T p f =
      .ok (f * act * Real.exp (-Ea / (kBeV * T)) * (p * Auc) / Real.sqrt (2 * Real.pi * m * kBJ * T)) := by
    intro p
    unfold kCT
    rw [if_neg (not_lt.mpr ha1), if_neg (not_lt.mpr hf1), if_neg hT.ne']
    dsimp only
    rw [if_neg (not_lt.mpr hq.le), if_neg hq.ne']
  refine ⟨_, key p, by positivity, ?_, ?_⟩
  · intro hE
    rw [div_le_div_iff_of_pos_right hs]
    have he : Real.exp (-Ea / (kBeV * T)) ≤ 1 := by
      rw [Real.exp_le_one_iff]
      exact div_nonpos_of_nonpos_of_nonneg (by linarith) (by positivity)
    have : f * act * Real.exp (-Ea / (kBeV * T)) ≤ 1 := by
      have h5 : f * act ≤ 1 := mul_le_one₀ hf1 ha.le ha1
      exact mul_le_one₀ h5 (Real.exp_pos _).le he
    calc _ ≤ 1 * (p * Auc) := mul_le_mul_of_nonneg_right this (by positivity)
      _ = p * Auc := one_mul _
  · intro c
    rw [key (c * p)]
    congr 1
    ring

/-- Rates of an adsorption: the reverse rate constant is positive and at most `kB T / h`, and obeys
detailed balance with the reaction energy corrected by the gas entropy, unless the equivalent
reverse barrier is clamped at zero, in which case it equals `kB T / h` and the ratio of the rates
exceeds the equilibrium constant. -/
theorem C20_adsorption (o : RateOwner) (rel : RelDict ℝ) (inclP : Bool) (rxn : Str) (rf rr : ℝ)
    (states : List (List Formula)) (is : List Formula) (f : Formula) (v : Rel1 ℝ)
    (hT : 0 < o.T) (hs : eqnFormulas rxn = .ok states) (his : states.head? = some is)
    (hf : is.find? (·.type = .gas) = some f) (hv : relOf o.rxns rel rxn = .ok v)
    (h : ratesCT o rel inclP rxn = .ok (rf, rr)) :
    ∃ p corr, pressureCT o inclP f.text = .ok p ∧ entropyCorrection o.pressures o.T (some p) f.text = .ok corr ∧
      0 < rf ∧ 0 < rr ∧ rr ≤ kBeV * o.T / heV ∧
      (rf / rr = Real.exp (-(v.dg - f.stoich * corr) / (kBeV * o.T)) ∨
        rr = kBeV * o.T / heV ∧ Real.exp (-(v.dg - f.stoich * corr) / (kBeV * o.T)) < rf / rr) := by
  have h1 := kBeV_pos
  have h2 := heV_pos
  unfold ratesCT at h
  rw [hv, hs] at h
  simp only [bind, Except.bind, his] at h
  cases hl : states.getLast? with
  | none => rw [hl] at h; cases h
  | some fs =>
    rw [hl] at h
    dsimp only at h
    by_cases ha : o.area > 0
    · by_cases hc : o.corrector = true
      · rw [if_neg (not_not.mpr ha), if_neg (by rw [hc]; simp), hf] at h
        simp only [pure, Except.pure] at h
        cases hm : molecularMass f.species with
        | error e => rw [hm] at h; cases h
        | ok m =>
          rw [hm] at h
          cases hp : pressureCT o inclP f.text with
          | error e => rw [hp] at h; cases h
          | ok p =>
            rw [hp] at h
            simp only at h
            cases hk : kCT v.gaf o.area o.actRatio (amu * (m : ℝ)) o.T p 1 with
            | error e => rw [hk] at h; cases h
            | ok k =>
              rw [hk] at h
              simp only at h
              cases hb : barrierFromCT k o.T with
              | error e => rw [hb] at h; cases h
              | ok g =>
                rw [hb] at h
                simp only at h
                cases hcor : entropyCorrection o.pressures o.T (some p) f.text with
                | error e => rw [hcor] at h; cases h
                | ok corr =>
                  rw [hcor] at h
                  simp only at h
                  have hkp : 0 < k := by
                    by_contra hneg
                    rw [C19_no_barrier k o.T (not_lt.mp hneg) hT] at hb
                    cases hb
                  obtain ⟨g', hg', hkg⟩ := C19_rate_of_barrier k o.T hkp hT
                  rw [hb] at hg'; cases hg'
                  have hkg' := (kTST_ok hT.ne').mp hkg
                  generalize hx : (if g - (v.dg - (f.stoich : ℝ) * corr) < 0 then 0
                    else g - (v.dg - (f.stoich : ℝ) * corr)) = x at h
                  have hxx : 0 ≤ x := by
                    rw [← hx]; split
                    · exact le_rfl
                    · rename_i hh; exact not_lt.mp hh
                  have hkt : kTST x o.T = .ok (kBeV * o.T / heV * Real.exp (-x / (kBeV * o.T))) :=
                    (kTST_ok hT.ne').mpr rfl
                  rw [hkt] at h
                  simp only [Except.ok.injEq, Prod.mk.injEq] at h
                  obtain ⟨rfl, rfl⟩ := h
                  refine ⟨p, corr, rfl, hcor, hkp, by positivity, ?_, ?_⟩
                  · have : Real.exp (-x / (kBeV * o.T)) ≤ 1 := by
                      rw [Real.exp_le_one_iff]
                      exact div_nonpos_of_nonpos_of_nonneg (by linarith) (by positivity)
                    calc _ ≤ kBeV * o.T / heV * 1 := mul_le_mul_of_nonneg_left this (by positivity)
                      _ = _ := mul_one _
                  · have hrat : k / (kBeV * o.T / heV * Real.exp (-x / (kBeV * o.T))) =
                        Real.exp (-(g - x) / (kBeV * o.T)) := by
                      rw [hkg', mul_div_mul_left _ _ (by positivity), ← Real.exp_sub]
                      congr 1; ring
                    rw [hrat]
                    by_cases hneg : g - (v.dg - (f.stoich : ℝ) * corr) < 0
                    · right
                      rw [if_pos hneg] at hx
                      subst hx
                      refine ⟨by simp, ?_⟩
                      rw [Real.exp_lt_exp]
                      apply (div_lt_div_iff_of_pos_right (by positivity)).mpr
                      linarith
                    · left
                      rw [if_neg hneg] at hx
                      subst hx
                      congr 1; ring
      · rw [if_neg (not_not.mpr ha), if_pos (by simpa using hc)] at h
        cases h
    · rw [if_pos ha] at h
      cases h

/-- Carbon monoxide adsorbing at 450 K on a unit cell of 6e-20 square metres: the hypotheses of
`C20_adsorption` are met. -/
example : ∃ rf rr, ratesCT ⟨[str! "CO_g + *_s -> CO_s"], 450, [], 6e-20, 1 / 2, true⟩
    ⟨some [0], some [2], some [-2]⟩ false (str! "CO_g + *_s -> CO_s") = .ok (rf, rr) := by
  have hm : (0 : ℝ) < amu * ((280101 / 10000 : ℚ) : ℝ) := by
    have := amu_pos
    have h2 : (0 : ℝ) < ((280101 / 10000 : ℚ) : ℝ) := by norm_num
    positivity
  obtain ⟨k, hk, kp, -⟩ := C20_bounded 0 6e-20 (1 / 2) (amu * ((280101 / 10000 : ℚ) : ℝ)) 450 P0 1
    (by norm_num) (by norm_num) (by norm_num) hm (by norm_num) P0_pos (by norm_num) (by norm_num)
  obtain ⟨g, hg, -⟩ := C19_rate_of_barrier k 450 kp (by norm_num)
  obtain ⟨c, hc⟩ := C67_defined_partial db_CO [] 450 P0 (by norm_num) P0_pos (by
    intro _ t ht; simp only [List.mem_singleton] at ht; subst ht; norm_num)
  have hrel : relOf [str! "CO_g + *_s -> CO_s"] ⟨some [0], some [2], some [-2]⟩ (str! "CO_g + *_s -> CO_s")
      = .ok (⟨0, 2, -2⟩ : Rel1 ℝ) := relOf_ok.mpr ⟨by simp, _, _, _, rfl, rfl, rfl, by simp⟩
  unfold ratesCT
  rw [show eqnFormulas (str! "CO_g + *_s -> CO_s") = .ok
    [[fCO, ⟨str! "*_s", 1, str! "*", 1, str! "s", str! "*_s"⟩],
     [⟨str! "CO_s", 1, str! "CO", 1, str! "s", str! "CO_s"⟩]] by decide, hrel]
  simp only [bind, Except.bind, List.head?_cons, List.getLast?_cons_cons, List.getLast?_singleton]
  rw [show List.find? (fun x : Formula => decide (x.type = .gas)) [fCO, ⟨str! "*_s", 1, str! "*", 1, str! "s", str! "*_s"⟩]
    = some fCO by decide]
  simp only [db_CO.mass]
  rw [if_neg (by norm_num)]
  simp only [pure, Except.pure, if_false, pressureCT, Bool.false_eq_true, hk, hg,
    show entropyCorrection [] 450 (some P0) fCO.text = .ok c from hc]
  rw [if_neg (by simp), (kTST_ok (by norm_num)).mpr rfl]
  exact ⟨_, _, rfl⟩

/-! ## C22 own energies -/

/-- Two copies of one reaction with different barriers: both get the rate constants of the first. -/
theorem C22_repeated_reaction_refuted (T : ℝ) (hT : 0 < T) :
    let rxns := [str! "CO_s + O_s <-> CO-O_2s -> CO2_g + 2*_s", str! "CO_s + O_s <-> CO-O_2s -> CO2_g + 2*_s"]
    ∃ kfs krs k2, rateConstants ⟨rxns, T, [], 0, 0, false⟩ .TST ⟨some [0, 1], some [0, 1], some [0, 0]⟩ = .ok (kfs, krs) ∧
      kTST 1 T = .ok k2 ∧ kfs[1]? ≠ some k2 := by
  intro rxns
  obtain ⟨k1, h1, -, -, hd⟩ := C16_positive_decreasing T hT 0
  obtain ⟨k2, h2, hlt⟩ := hd 1 (by norm_num)
  have hrel : relOf rxns ⟨some [0, 1], some [0, 1], some [0, 0]⟩ (str! "CO_s + O_s <-> CO-O_2s -> CO2_g + 2*_s")
      = .ok (⟨0, 0, 0⟩ : Rel1 ℝ) := relOf_ok.mpr ⟨by simp [rxns], _, _, _, rfl, rfl, rfl, by simp [rxns]⟩
  have h := ratesTST_ok (o := ⟨rxns, T, [], 0, 0, false⟩) (k := (k1, k1)).mpr ⟨_, hrel, h1, h1⟩
  refine ⟨[k1, k1], [k1, k1], k2, ?_, h2, by simpa using (ne_of_gt hlt)⟩
  unfold rateConstants
  simp only [rxns, List.mapM_cons, List.mapM_nil]
  simp only [rxns] at h
  rw [h]
  rfl

/-- When no expression is repeated, the constants at position `i` come from the energies at
position `i`. -/
theorem C22_own_energies_partial (o : RateOwner) (gaf gar dg kfs krs : List ℝ) (hnd : o.rxns.Nodup)
    (h : rateConstants o .TST ⟨some gaf, some gar, some dg⟩ = .ok (kfs, krs)) :
    kfs.length = o.rxns.length ∧ krs.length = o.rxns.length ∧
    ∀ i, i < o.rxns.length → ∃ a b kf kr, gaf[i]? = some a ∧ gar[i]? = some b ∧ kfs[i]? = some kf ∧
      krs[i]? = some kr ∧ kTST a o.T = .ok kf ∧ kTST b o.T = .ok kr := by
  unfold rateConstants at h
  rw [guard_ok] at h
  simp only [bind_ok, pure_ok, Prod.mk.injEq] at h
  obtain ⟨-, l, hl, rfl, rfl⟩ := h
  obtain ⟨m1, m2⟩ := mapM_ok_inv hl
  refine ⟨by simp [m1], by simp [m1], ?_⟩
  intro i hi
  have hr := m2 i hi (by omega)
  obtain ⟨v, hv, e1, e2⟩ := ratesTST_ok.mp hr
  obtain ⟨-, a1, a2, a3, g1, g2, g3, f1, f2, f3⟩ := relOf_ok.mp hv
  simp only [Option.some.injEq] at g1 g2 g3
  subst g1 g2 g3
  rw [List.Nodup.idxOf_getElem hnd] at f1 f2
  exact ⟨_, _, _, _, f1, f2, by simp [m1, hi], by simp [m1, hi], e1, e2⟩

/-- The same for collision theory: each position uses its own energies when expressions are
distinct. -/
theorem C22_own_energies_CT_partial (o : RateOwner) (gaf gar dg kfs krs : List ℝ) (hnd : o.rxns.Nodup)
    (h : rateConstants o .CT ⟨some gaf, some gar, some dg⟩ = .ok (kfs, krs)) :
    kfs.length = o.rxns.length ∧ krs.length = o.rxns.length ∧
    ∀ i (hi : i < o.rxns.length), ∃ a b c kf kr, gaf[i]? = some a ∧ gar[i]? = some b ∧ dg[i]? = some c ∧
      kfs[i]? = some kf ∧ krs[i]? = some kr ∧
      ratesCT { o with rxns := [o.rxns[i]] } ⟨some [a], some [b], some [c]⟩ false o.rxns[i] = .ok (kf, kr) := by
  unfold rateConstants at h
  rw [guard_ok] at h
  simp only [bind_ok, pure_ok, Prod.mk.injEq] at h
  obtain ⟨-, l, hl, rfl, rfl⟩ := h
  obtain ⟨m1, m2⟩ := mapM_ok_inv hl
  refine ⟨by simp [m1], by simp [m1], ?_⟩
  intro i hi
  have hr := m2 i hi (by omega)
  have hv : ∃ v, relOf o.rxns ⟨some gaf, some gar, some dg⟩ o.rxns[i] = .ok v := by
    unfold ratesCT at hr
    rw [bind_ok] at hr
    obtain ⟨v, hv, -⟩ := hr
    exact ⟨v, hv⟩
  obtain ⟨v, hv⟩ := hv
  obtain ⟨-, a1, a2, a3, g1, g2, g3, f1, f2, f3⟩ := relOf_ok.mp hv
  simp only [Option.some.injEq] at g1 g2 g3
  subst g1 g2 g3
  rw [List.Nodup.idxOf_getElem hnd] at f1 f2 f3
  refine ⟨v.gaf, v.gar, v.dg, l[i].1, l[i].2, f1, f2, f3, by simp [m1, hi], by simp [m1, hi], ?_⟩
  have hv' : relOf [o.rxns[i]] ⟨some [v.gaf], some [v.gar], some [v.dg]⟩ o.rxns[i] = .ok v :=
    relOf_ok.mpr ⟨by simp, _, _, _, rfl, rfl, rfl, by simp⟩
  have : ratesCT { o with rxns := [o.rxns[i]] } ⟨some [v.gaf], some [v.gar], some [v.dg]⟩ false o.rxns[i]
      = ratesCT o ⟨some gaf, some gar, some dg⟩ false o.rxns[i] := by
    unfold ratesCT
    rw [hv]
    dsimp only
    rw [hv']
    rfl
  rw [this, hr]

example : ∃ kfs krs, rateConstants ⟨[str! "CO_g + *_s -> CO_s", str! "O2_g + 2*_s -> 2O_s"], 450, [], 0, 0, false⟩ .TST
    ⟨some [0, 1], some [2, 3], some [-2, -2]⟩ = .ok (kfs, krs) := by
  obtain ⟨k1, h1, -⟩ := C16_positive_decreasing 450 (by norm_num) 0
  obtain ⟨k2, h2, -⟩ := C16_positive_decreasing 450 (by norm_num) 2
  obtain ⟨k3, h3, -⟩ := C16_positive_decreasing 450 (by norm_num) 1
  obtain ⟨k4, h4, -⟩ := C16_positive_decreasing 450 (by norm_num) 3
  refine ⟨[k1, k3], [k2, k4], ?_⟩
  unfold rateConstants
  have e1 := ratesTST_ok (o := ⟨[str! "CO_g + *_s -> CO_s", str! "O2_g + 2*_s -> 2O_s"], 450, [], 0, 0, false⟩)
    (rel := ⟨some [0, 1], some [2, 3], some [-2, -2]⟩) (rxn := str! "CO_g + *_s -> CO_s") (k := (k1, k2)).mpr
    ⟨⟨0, 2, -2⟩, relOf_ok.mpr ⟨by simp, _, _, _, rfl, rfl, rfl, by simp⟩, h1, h2⟩
  have e2 := ratesTST_ok (o := ⟨[str! "CO_g + *_s -> CO_s", str! "O2_g + 2*_s -> 2O_s"], 450, [], 0, 0, false⟩)
    (rel := ⟨some [0, 1], some [2, 3], some [-2, -2]⟩) (rxn := str! "O2_g + 2*_s -> 2O_s") (k := (k3, k4)).mpr
    ⟨⟨1, 3, -2⟩, relOf_ok.mpr ⟨by simp, _, _, _, rfl, rfl, rfl, by
      rw [show [str! "CO_g + *_s -> CO_s", str! "O2_g + 2*_s -> 2O_s"].idxOf (str! "O2_g + 2*_s -> 2O_s") = 1 by decide]
      simp⟩, h3, h4⟩
  simp only [List.mapM_cons, List.mapM_nil, e1, e2]
  rfl

/-! ## C21 pressures -/

/-- Specification: product of the pressures of the gases of a state, each to the power of its
coefficient. -/
noncomputable def specPressure (P : Str → ℝ) (fs : List Formula) : ℝ :=
  ((fs.filter (·.type = .gas)).map fun g => P g.speciesSite ^ g.stoich).prod

theorem foldl_mul_prod (l : List ℝ) (a : ℝ) : l.foldl (· * ·) a = a * l.prod := by
  induction l generalizing a with
  | nil => simp
  | cons x l ih => rw [List.foldl_cons, ih, List.prod_cons]; ring

/-- With all gases written without coefficient, the rates including pressure are the rate constants
times the specified product. Missing: written coefficients, see the refutation. -/
theorem C21_pressures_partial (o : RateOwner) (rel : RelDict ℝ) (rxn : Str) (kf kr rf rr : ℝ)
    (P : Str → ℝ) (hP : Extends P o.pressures) (states : List (List Formula)) (is fs : List Formula)
    (hs : eqnFormulas rxn = .ok states) (his : states.head? = some is) (hfs : states.getLast? = some fs)
    (h1 : ∀ g ∈ is ++ fs, g.type = .gas → g.text = g.speciesSite ∧ g.stoich = 1)
    (hk : ratesTST o rel false rxn = .ok (kf, kr)) (hr : ratesTST o rel true rxn = .ok (rf, rr)) :
    rf = specPressure P is * kf ∧ rr = specPressure P fs * kr := by
  have key : ∀ (gs : List Formula) (p : ℝ), (∀ g ∈ gs, g.type = .gas ∧ g.text = g.speciesSite ∧ g.stoich = 1) →
      pressureProduct o.pressures gs = .ok p → p = specPressure P gs := by
    intro gs p hg hp
    unfold pressureProduct at hp
    rw [bind_ok] at hp
    obtain ⟨ps, hps, hp⟩ := hp
    obtain ⟨m1, m2⟩ := mapM_ok_inv hps
    have hps' : ps = gs.map fun g => P g.speciesSite ^ g.stoich := by
      apply List.ext_getElem (by simp [m1])
      intro i hi hi'
      have := m2 i (by omega) hi
      unfold dictGet at this
      have hgi := hg gs[i] (List.getElem_mem _)
      split at this
      · rename_i v hv
        cases this
        have := hP _ _ hv
        rw [hgi.2.1] at this
        simp [hgi.2.2, this]
      · cases this
    have hfil : gs.filter (·.type = .gas) = gs := by
      rw [List.filter_eq_self]; intro g hg'; simp [(hg g hg').1]
    unfold specPressure
    rw [hfil, ← hps']
    cases ps with
    | nil => rw [pure_ok] at hp; rw [← hp]; rfl
    | cons x xs => rw [pure_ok] at hp; rw [← hp, foldl_mul_prod, List.prod_cons]
  have hfil : ∀ fs : List Formula, specPressure P (fs.filter (·.type = .gas)) = specPressure P fs := by
    intro fs; unfold specPressure; rw [List.filter_filter]; simp
  have hads : adsorptionGases rxn = .ok (is.filter (·.type = .gas)) := by
    unfold adsorptionGases; rw [hs]; simp only [bind, Except.bind, his]; rfl
  have hdes : desorptionGases rxn = .ok (fs.filter (·.type = .gas)) := by
    unfold desorptionGases; rw [hs]; simp only [bind, Except.bind, hfs]; rfl
  obtain ⟨v, hv, e1, e2⟩ := ratesTST_ok.mp hk
  unfold ratesTST at hr
  rw [hv, hads, hdes] at hr
  simp only [bind_ok, Except.ok.injEq, exists_eq_left', if_true, pure_ok, Prod.mk.injEq] at hr
  obtain ⟨a, ha, b, hb, p, hp, p', hp', rfl, rfl⟩ := hr
  rw [e1] at ha; cases ha
  rw [e2] at hb; cases hb
  rw [← hfil is, ← hfil fs, ← key _ p ?_ hp, ← key _ p' ?_ hp']
  · exact ⟨rfl, rfl⟩
  · intro g hg
    simp only [List.mem_filter, decide_eq_true_eq] at hg
    exact ⟨hg.2, h1 g (by simp [hg.1]) hg.2⟩
  · intro g hg
    simp only [List.mem_filter, decide_eq_true_eq] at hg
    exact ⟨hg.2, h1 g (by simp [hg.1]) hg.2⟩

/-- Two molecules of one gas written with a coefficient: the pressure is not found although the
gas is defined, so no rate is returned. -/
theorem C21_coefficient_refuted (T : ℝ) (hT : 0 < T) :
    let rxn := str! "2CO_g + 2*_s -> 2CO_s"
    let o : RateOwner := ⟨[rxn], T, [(str! "CO_g", 1)], 0, 0, false⟩
    let rel : RelDict ℝ := ⟨some [0], some [1], some [-1]⟩
    (∃ k, ratesTST o rel false rxn = .ok k) ∧ ratesTST o rel true rxn = .error .KeyError := by
  intro rxn o rel
  obtain ⟨k1, h1, -⟩ := C16_positive_decreasing T hT 0
  obtain ⟨k2, h2, -⟩ := C16_positive_decreasing T hT 1
  have hrel : relOf o.rxns rel rxn = .ok (⟨0, 1, -1⟩ : Rel1 ℝ) :=
    relOf_ok.mpr ⟨by simp [o], _, _, _, rfl, rfl, rfl, by simp [o]⟩
  refine ⟨⟨(k1, k2), ratesTST_ok.mpr ⟨_, hrel, h1, h2⟩⟩, ?_⟩
  have ha : adsorptionGases rxn = .ok [fCO2x] := by decide
  have hp : pressureProduct o.pressures [fCO2x] = .error .KeyError := by
    unfold pressureProduct dictGet
    rw [List.mapM_cons, show get? o.pressures fCO2x.text = none from rfl]
    rfl
  unfold ratesTST
  rw [hrel, ha]
  simp only [bind, Except.bind, show kTST (0 : ℝ) o.T = .ok k1 from h1,
    show kTST (1 : ℝ) o.T = .ok k2 from h2, if_true, hp]

/-- Two gases on one side. -/
example (T : ℝ) (hT : 0 < T) : ∃ r, ratesTST ⟨[str! "CO_g + O2_g -> X_g"], T,
    [(str! "CO_g", 2), (str! "O2_g", 3), (str! "X_g", 5)], 0, 0, false⟩ ⟨some [0], some [1], some [-1]⟩ true
    (str! "CO_g + O2_g -> X_g") = .ok r := by
  obtain ⟨k1, h1, -⟩ := C16_positive_decreasing T hT 0
  obtain ⟨k2, h2, -⟩ := C16_positive_decreasing T hT 1
  have hrel : relOf [str! "CO_g + O2_g -> X_g"] ⟨some [0], some [1], some [-1]⟩ (str! "CO_g + O2_g -> X_g")
      = .ok (⟨0, 1, -1⟩ : Rel1 ℝ) := relOf_ok.mpr ⟨by simp, _, _, _, rfl, rfl, rfl, by simp⟩
  have ha : adsorptionGases (str! "CO_g + O2_g -> X_g") = .ok
    [fCO, ⟨str! "O2_g", 1, str! "O2", 1, str! "g", str! "O2_g"⟩] := by decide
  have hd : desorptionGases (str! "CO_g + O2_g -> X_g") = .ok
    [⟨str! "X_g", 1, str! "X", 1, str! "g", str! "X_g"⟩] := by decide
  unfold ratesTST
  rw [hrel, ha, hd]
  simp only [bind, Except.bind, h1, h2, if_true]
  exact ⟨_, rfl⟩

/-- What an adsorption by collision theory computes. -/
theorem ratesCT_adsorption {o : RateOwner} {rel : RelDict ℝ} {inclP : Bool} {rxn : Str} {rf rr : ℝ}
    {states : List (List Formula)} {is : List Formula} {f : Formula}
    (hs : eqnFormulas rxn = .ok states) (his : states.head? = some is)
    (hf : is.find? (·.type = .gas) = some f) (h : ratesCT o rel inclP rxn = .ok (rf, rr)) :
    ∃ v m p g corr, relOf o.rxns rel rxn = .ok v ∧ molecularMass f.species = .ok m ∧
      pressureCT o inclP f.text = .ok p ∧
      kCT v.gaf o.area o.actRatio (amu * (m : ℝ)) o.T p 1 = .ok rf ∧ barrierFromCT rf o.T = .ok g ∧
      entropyCorrection o.pressures o.T (some p) f.text = .ok corr ∧
      kTST (if g - (v.dg - (f.stoich : ℝ) * corr) < 0 then 0 else g - (v.dg - (f.stoich : ℝ) * corr)) o.T = .ok rr := by
  unfold ratesCT at h
  rw [bind_ok] at h
  obtain ⟨v, hv, h⟩ := h
  rw [hs] at h
  simp only [bind, Except.bind, his] at h
  cases hl : states.getLast? with
  | none => rw [hl] at h; cases h
  | some fs =>
    rw [hl] at h
    dsimp only at h
    split at h
    · cases h
    split at h
    · cases h
    rw [hf] at h
    simp only [pure, Except.pure] at h
    cases hm : molecularMass f.species with
    | error e => rw [hm] at h; cases h
    | ok m =>
      rw [hm] at h
      cases hp : pressureCT o inclP f.text with
      | error e => rw [hp] at h; cases h
      | ok p =>
        rw [hp] at h
        simp only at h
        cases hk : kCT v.gaf o.area o.actRatio (amu * (m : ℝ)) o.T p 1 with
        | error e => rw [hk] at h; cases h
        | ok k =>
          rw [hk] at h
          simp only at h
          cases hb : barrierFromCT k o.T with
          | error e => rw [hb] at h; cases h
          | ok g =>
            rw [hb] at h
            simp only at h
            cases hcor : entropyCorrection o.pressures o.T (some p) f.text with
            | error e => rw [hcor] at h; cases h
            | ok corr =>
              rw [hcor] at h
              simp only at h
              generalize hx : kTST (if g - (v.dg - (f.stoich : ℝ) * corr) < 0 then 0
                else g - (v.dg - (f.stoich : ℝ) * corr)) o.T = x at h
              cases x with
              | error e => cases h
              | ok x =>
                cases h
                exact ⟨v, m, p, g, corr, hv, rfl, rfl, hk, hb, hcor, hx⟩

/-- What a desorption by collision theory computes. -/
theorem ratesCT_desorption {o : RateOwner} {rel : RelDict ℝ} {inclP : Bool} {rxn : Str} {rf rr : ℝ}
    {states : List (List Formula)} {is fs : List Formula} {f : Formula}
    (hs : eqnFormulas rxn = .ok states) (his : states.head? = some is) (hfs : states.getLast? = some fs)
    (hn : is.find? (·.type = .gas) = none)
    (hf : fs.find? (·.type = .gas) = some f) (h : ratesCT o rel inclP rxn = .ok (rf, rr)) :
    ∃ v p corr, relOf o.rxns rel rxn = .ok v ∧ pressureCT o inclP f.text = .ok p ∧
      entropyCorrection o.pressures o.T (some p) f.text = .ok corr ∧
      kTST (v.gar - (f.stoich : ℝ) * corr) o.T = .ok rr ∧ kTST v.gaf o.T = .ok rf := by
  unfold ratesCT at h
  rw [bind_ok] at h
  obtain ⟨v, hv, h⟩ := h
  rw [hs] at h
  simp only [bind, Except.bind, his, hfs] at h
  split at h
  · cases h
  split at h
  · cases h
  rw [hn] at h
  simp only [hf, pure, Except.pure] at h
  cases hp : pressureCT o inclP f.text with
  | error e => rw [hp] at h; cases h
  | ok p =>
    rw [hp] at h
    cases hm : molecularMass f.species with
    | error e => rw [hm] at h; cases h
    | ok m =>
      rw [hm] at h
      simp only at h
      cases hcor : entropyCorrection o.pressures o.T (some p) f.text with
      | error e => rw [hcor] at h; cases h
      | ok corr =>
        rw [hcor] at h
        simp only at h
        cases hk : kTST (v.gar - (f.stoich : ℝ) * corr) o.T with
        | error e => rw [hk] at h; cases h
        | ok k =>
          rw [hk] at h
          simp only at h
          cases hk' : kTST v.gaf o.T with
          | error e => rw [hk'] at h; cases h
          | ok k' =>
            rw [hk'] at h
            cases h
            exact ⟨v, p, corr, hv, rfl, hcor, hk, hk'⟩

theorem pressureCT_true {o : RateOwner} {name : Str} {p q : ℝ} (h : get? o.pressures name = some p)
    (hq : pressureCT o true name = .ok q) : q = P0 * p := by
  unfold pressureCT dictGet at hq
  rw [if_pos rfl, h] at hq
  cases hq; rfl

theorem barrierFromCT_ok {k T g : ℝ} (hT : 0 < T) (h : barrierFromCT k T = .ok g) :
    0 < k ∧ g = -Real.log (k * heV / (kBeV * T)) * (kBeV * T) := by
  have hk : 0 < k := by
    by_contra hneg
    rw [C19_no_barrier k T (not_lt.mp hneg) hT] at h
    cases h
  refine ⟨hk, ?_⟩
  have h1 := kBeV_pos
  have h2 := heV_pos
  have hp : 0 < k * heV / (kBeV * T) := by positivity
  unfold barrierFromCT at h
  rw [if_neg hT.ne', if_neg (not_le.mpr hp)] at h
  cases h; rfl

/-- Rates by collision theory are positive. -/
theorem ratesCT_pos {ro : RateOwner} (hT : 0 < ro.T) {rel : RelDict ℝ} {inclP : Bool} {x : Str} {rf rr : ℝ}
    (hr : ratesCT ro rel inclP x = .ok (rf, rr)) : 0 < rf ∧ 0 < rr := by
  have hB := kBeV_pos
  have hH := heV_pos
  have tst : ∀ {g k : ℝ}, kTST g ro.T = .ok k → 0 < k := by
    intro g k hk
    rw [(kTST_ok hT.ne').mp hk]
    positivity
  cases hs : eqnFormulas x with
  | error e =>
    unfold ratesCT at hr
    rw [bind_ok] at hr
    obtain ⟨v, -, hr⟩ := hr
    rw [hs] at hr
    exact nomatch hr
  | ok states =>
    cases his : states.head? with
    | none =>
      unfold ratesCT at hr
      rw [bind_ok] at hr
      obtain ⟨v, -, hr⟩ := hr
      rw [hs] at hr
      simp only [bind, Except.bind, his] at hr
      exact nomatch hr
    | some is =>
      cases hfs : states.getLast? with
      | none => rw [List.getLast?_eq_none_iff.mp hfs] at his; exact nomatch his
      | some fs =>
        cases hi : is.find? (·.type = .gas) with
        | some f =>
          obtain ⟨w, mm, q, g, corr, -, -, -, -, hb, -, hrr⟩ := ratesCT_adsorption hs his hi hr
          exact ⟨(barrierFromCT_ok hT hb).1, tst hrr⟩
        | none =>
          cases hf : fs.find? (·.type = .gas) with
          | some f =>
            obtain ⟨w, q, corr, -, -, -, hrr, hrf⟩ := ratesCT_desorption hs his hfs hi hf hr
            exact ⟨tst hrf, tst hrr⟩
          | none =>
            unfold ratesCT at hr
            rw [bind_ok] at hr
            obtain ⟨v, -, hr⟩ := hr
            rw [hs] at hr
            simp only [bind, Except.bind, his, hfs, hi, hf] at hr
            split at hr
            · cases hr
            split at hr
            · cases hr
            rw [(kTST_ok hT.ne').mpr rfl, (kTST_ok hT.ne').mpr rfl] at hr
            cases hr
            constructor <;> positivity

theorem kCT_mul {Ea Auc act m T p f k : ℝ} (c : ℝ) (h : kCT Ea Auc act m T p f = .ok k) :
    kCT Ea Auc act m T (p * c) f = .ok (c * k) := by
  unfold kCT at h ⊢
  split at h
  · cases h
  split at h
  · cases h
  split at h
  · cases h
  dsimp only at h ⊢
  split at h
  · cases h
  split at h
  · cases h
  cases h
  rename_i h1 h2 h3 h4 h5
  rw [if_neg h1, if_neg h2, if_neg h3, if_neg h4, if_neg h5]
  congr 1
  ring

/-- Collision theory, adsorption of one molecule of a gas of the data base: with the pressure
included the forward rate is the rate constant times the pressure, and the reverse rate is the rate
constant itself. Missing: several molecules or gases, gases outside the data base. -/
theorem C21_collision_adsorption_partial (o : RateOwner) (rel : RelDict ℝ) (rxn : Str) (kf kr rf rr p : ℝ)
    (states : List (List Formula)) (is : List Formula) (f f' : Formula) {sigma mass : ℚ} {rot vib : List ℚ}
    (hs : eqnFormulas rxn = .ok states) (his : states.head? = some is)
    (hf : is.find? (·.type = .gas) = some f) (h1 : f.stoich = 1)
    (hdb : InDatabase f.text f' sigma rot vib mass) (hT : 0 < o.T)
    (hp : get? o.pressures f.text = some p) (hp0 : 0 < p)
    (hk : ratesCT o rel false rxn = .ok (kf, kr)) (hr : ratesCT o rel true rxn = .ok (rf, rr)) :
    rf = p * kf ∧ rr = kr := by
  obtain ⟨v, m, q, g, c, hv, hm, hq, hkf, hb, hc, hkr⟩ := ratesCT_adsorption hs his hf hk
  obtain ⟨v', m', q', g', c', hv', hm', hq', hkf', hb', hc', hkr'⟩ := ratesCT_adsorption hs his hf hr
  rw [hv] at hv'; cases hv'
  rw [hm] at hm'; cases hm'
  have eq0 : q = P0 := by unfold pressureCT at hq; cases hq; rfl
  have eq1 := pressureCT_true hp hq'
  subst eq0 eq1
  have e1 : rf = p * kf := by
    have := kCT_mul p hkf
    rw [hkf'] at this
    cases this; rfl
  refine ⟨e1, ?_⟩
  have hd := C67_pressure_dependence hdb _ _ _ _ _ _ hT P0_pos (mul_pos P0_pos hp0) hc hc'
  rw [mul_div_cancel_left₀ _ P0_pos.ne'] at hd
  obtain ⟨kp, eg⟩ := barrierFromCT_ok hT hb
  obtain ⟨-, eg'⟩ := barrierFromCT_ok hT hb'
  have hB := kBeV_pos
  have hH := heV_pos
  have hl : Real.log (rf * heV / (kBeV * o.T)) = Real.log p + Real.log (kf * heV / (kBeV * o.T)) := by
    rw [← Real.log_mul hp0.ne' (by positivity), e1]
    congr 1; ring
  have heq : g' - (v.dg - (f.stoich : ℝ) * c') = g - (v.dg - (f.stoich : ℝ) * c) := by
    rw [eg', eg, hl, h1]
    push_cast
    linear_combination hd
  rw [heq, hkr] at hkr'
  cases hkr'; rfl

/-- Collision theory, desorption of one molecule of a gas of the data base: with the pressure
included the reverse rate is the rate constant times the pressure, and the forward rate is the rate
constant itself. Missing: as above. -/
theorem C21_collision_desorption_partial (o : RateOwner) (rel : RelDict ℝ) (rxn : Str) (kf kr rf rr p : ℝ)
    (states : List (List Formula)) (is fs : List Formula) (f f' : Formula) {sigma mass : ℚ} {rot vib : List ℚ}
    (hs : eqnFormulas rxn = .ok states) (his : states.head? = some is) (hfs : states.getLast? = some fs)
    (hn : is.find? (·.type = .gas) = none)
    (hf : fs.find? (·.type = .gas) = some f) (h1 : f.stoich = 1)
    (hdb : InDatabase f.text f' sigma rot vib mass) (hT : 0 < o.T)
    (hp : get? o.pressures f.text = some p) (hp0 : 0 < p)
    (hk : ratesCT o rel false rxn = .ok (kf, kr)) (hr : ratesCT o rel true rxn = .ok (rf, rr)) :
    rf = kf ∧ rr = p * kr := by
  obtain ⟨v, q, c, hv, hq, hc, hkr, hkf⟩ := ratesCT_desorption hs his hfs hn hf hk
  obtain ⟨v', q', c', hv', hq', hc', hkr', hkf'⟩ := ratesCT_desorption hs his hfs hn hf hr
  rw [hv] at hv'; cases hv'
  have eq0 : q = P0 := by unfold pressureCT at hq; cases hq; rfl
  have eq1 := pressureCT_true hp hq'
  subst eq0 eq1
  rw [hkf] at hkf'; cases hkf'
  refine ⟨rfl, ?_⟩
  have hd := C67_pressure_dependence hdb _ _ _ _ _ _ hT P0_pos (mul_pos P0_pos hp0) hc hc'
  rw [mul_div_cancel_left₀ _ P0_pos.ne'] at hd
  have hB := kBeV_pos
  rw [(kTST_ok hT.ne').mp hkr', (kTST_ok hT.ne').mp hkr, h1]
  have : -(v.gar - ((1 : Nat) : ℝ) * c') / (kBeV * o.T) = Real.log p + -(v.gar - ((1 : Nat) : ℝ) * c) / (kBeV * o.T) := by
    have : c' = c + kBeV * o.T * Real.log p := by linarith
    rw [this]
    push_cast
    field_simp
    ring
  rw [this, Real.exp_add, Real.exp_log hp0]
  ring

/-- Carbon monoxide at two atmospheres on a unit cell of 6e-20 square metres: both calls succeed. -/
example : let rxn := str! "CO_g + *_s -> CO_s"
    let o : RateOwner := ⟨[rxn], 450, [(str! "CO_g", 2)], 6e-20, 1 / 2, true⟩
    ∃ kf kr, ratesCT o ⟨some [0], some [2], some [-2]⟩ true rxn = .ok (2 * kf, kr) ∧
      ratesCT o ⟨some [0], some [2], some [-2]⟩ false rxn = .ok (kf, kr) := by
  intro rxn o
  have hm : (0 : ℝ) < amu * ((280101 / 10000 : ℚ) : ℝ) := by
    have := amu_pos
    have h2 : (0 : ℝ) < ((280101 / 10000 : ℚ) : ℝ) := by norm_num
    positivity
  have hst : eqnFormulas rxn = .ok [[fCO, ⟨str! "*_s", 1, str! "*", 1, str! "s", str! "*_s"⟩],
     [⟨str! "CO_s", 1, str! "CO", 1, str! "s", str! "CO_s"⟩]] := by decide
  have hfind : List.find? (fun x : Formula => decide (x.type = .gas))
      [fCO, ⟨str! "*_s", 1, str! "*", 1, str! "s", str! "*_s"⟩] = some fCO := by decide
  have hrel : relOf o.rxns ⟨some [0], some [2], some [-2]⟩ rxn = .ok (⟨0, 2, -2⟩ : Rel1 ℝ) :=
    relOf_ok.mpr ⟨by simp [o], _, _, _, rfl, rfl, rfl, by simp [o]⟩
  have key : ∀ b, ∃ k, ratesCT o ⟨some [0], some [2], some [-2]⟩ b rxn = .ok k := by
    intro b
    obtain ⟨p, hp, pp⟩ : ∃ p, pressureCT o b fCO.text = .ok p ∧ 0 < p := by
      cases b
      · exact ⟨P0, rfl, P0_pos⟩
      · exact ⟨P0 * 2, rfl, mul_pos P0_pos (by norm_num)⟩
    obtain ⟨k, hk, kp, -⟩ := C20_bounded 0 6e-20 (1 / 2) (amu * ((280101 / 10000 : ℚ) : ℝ)) 450 p 1
      (by norm_num) (by norm_num) (by norm_num) hm (by norm_num) pp (by norm_num) (by norm_num)
    obtain ⟨g, hg, -⟩ := C19_rate_of_barrier k 450 kp (by norm_num)
    obtain ⟨c, hc⟩ := C67_defined_partial db_CO o.pressures 450 p (by norm_num) pp (by
      intro _ t ht; simp only [List.mem_singleton] at ht; subst ht; norm_num)
    unfold ratesCT
    rw [hst, hrel]
    simp only [bind, Except.bind, List.head?_cons, List.getLast?_cons_cons, List.getLast?_singleton]
    rw [hfind, if_neg (by norm_num [o]), if_neg (by simp [o])]
    simp only [show molecularMass fCO.species = _ from db_CO.mass, hp, pure, Except.pure,
      show kCT 0 o.area o.actRatio _ o.T p 1 = _ from hk, show barrierFromCT k o.T = _ from hg,
      show entropyCorrection o.pressures o.T (some p) fCO.text = .ok c from hc]
    rw [show o.T = 450 from rfl, (kTST_ok (by norm_num)).mpr rfl]
    exact ⟨_, rfl⟩
  obtain ⟨⟨kf, kr⟩, h1⟩ := key false
  obtain ⟨⟨rf, rr⟩, h2⟩ := key true
  obtain ⟨rfl, rfl⟩ := C21_collision_adsorption_partial o _ rxn kf kr rf rr 2 _ _ fCO fCO hst rfl hfind rfl db_CO
    (by norm_num [o]) rfl (by norm_num) h1 h2
  exact ⟨kf, rr, h2, h1⟩

/-- The reverse writing of the same reaction: both calls succeed. -/
example : let rxn := str! "CO_s -> CO_g + *_s"
    let o : RateOwner := ⟨[rxn], 450, [(str! "CO_g", 2)], 6e-20, 1 / 2, true⟩
    ∃ kf kr, ratesCT o ⟨some [2], some [0], some [2]⟩ true rxn = .ok (kf, 2 * kr) ∧
      ratesCT o ⟨some [2], some [0], some [2]⟩ false rxn = .ok (kf, kr) := by
  intro rxn o
  have hst : eqnFormulas rxn = .ok [[⟨str! "CO_s", 1, str! "CO", 1, str! "s", str! "CO_s"⟩],
      [fCO, ⟨str! "*_s", 1, str! "*", 1, str! "s", str! "*_s"⟩]] := by decide
  have hnone : List.find? (fun x : Formula => decide (x.type = .gas))
      [⟨str! "CO_s", 1, str! "CO", 1, str! "s", str! "CO_s"⟩] = none := by decide
  have hfind : List.find? (fun x : Formula => decide (x.type = .gas))
      [fCO, ⟨str! "*_s", 1, str! "*", 1, str! "s", str! "*_s"⟩] = some fCO := by decide
  have hrel : relOf o.rxns ⟨some [2], some [0], some [2]⟩ rxn = .ok (⟨2, 0, 2⟩ : Rel1 ℝ) :=
    relOf_ok.mpr ⟨by simp [o], _, _, _, rfl, rfl, rfl, by simp [o]⟩
  have key : ∀ b, ∃ k, ratesCT o ⟨some [2], some [0], some [2]⟩ b rxn = .ok k := by
    intro b
    obtain ⟨p, hp, pp⟩ : ∃ p, pressureCT o b fCO.text = .ok p ∧ 0 < p := by
      cases b
      · exact ⟨P0, rfl, P0_pos⟩
      · exact ⟨P0 * 2, rfl, mul_pos P0_pos (by norm_num)⟩
    obtain ⟨c, hc⟩ := C67_defined_partial db_CO o.pressures 450 p (by norm_num) pp (by
      intro _ t ht; simp only [List.mem_singleton] at ht; subst ht; norm_num)
    unfold ratesCT
    rw [hst, hrel]
    simp only [bind, Except.bind, List.head?_cons, List.getLast?_cons_cons, List.getLast?_singleton]
    rw [hnone, if_neg (by norm_num [o]), if_neg (by simp [o])]
    simp only [hfind, show molecularMass fCO.species = _ from db_CO.mass, hp, pure, Except.pure,
      show entropyCorrection o.pressures o.T (some p) fCO.text = .ok c from hc]
    rw [show o.T = 450 from rfl, (kTST_ok (by norm_num)).mpr rfl, (kTST_ok (by norm_num)).mpr rfl]
    exact ⟨_, rfl⟩
  obtain ⟨⟨kf, kr⟩, h1⟩ := key false
  obtain ⟨⟨rf, rr⟩, h2⟩ := key true
  obtain ⟨rfl, rfl⟩ := C21_collision_desorption_partial o _ rxn kf kr rf rr 2 _ _ _ fCO fCO hst rfl rfl hnone hfind rfl db_CO
    (by norm_num [o]) rfl (by norm_num) h1 h2
  exact ⟨rf, kr, h2, h1⟩

/-- A gas on both sides: the reverse rate by collision theory does not contain the pressure of the
product, whatever it is, while transition state theory multiplies by it. -/
theorem C21_collision_both_sides_refuted (q : ℝ) (hq : q ≠ 1) :
    let rxn := str! "CO_g + O_s -> CO2_g + *_s"
    let o : RateOwner := ⟨[rxn], 450, [(str! "CO_g", 1), (str! "CO2_g", q)], 6e-20, 1 / 2, true⟩
    let rel : RelDict ℝ := ⟨some [0], some [2], some [-2]⟩
    ∃ kf kr rr, ratesCT o rel false rxn = .ok (kf, kr) ∧ ratesCT o rel true rxn = .ok (kf, rr) ∧ rr ≠ q * kr := by
  intro rxn o rel
  have hm : (0 : ℝ) < amu * ((280101 / 10000 : ℚ) : ℝ) := by
    have := amu_pos
    have h2 : (0 : ℝ) < ((280101 / 10000 : ℚ) : ℝ) := by norm_num
    positivity
  obtain ⟨k, hk, kp, -⟩ := C20_bounded 0 6e-20 (1 / 2) (amu * ((280101 / 10000 : ℚ) : ℝ)) 450 P0 1
    (by norm_num) (by norm_num) (by norm_num) hm (by norm_num) P0_pos (by norm_num) (by norm_num)
  obtain ⟨g, hg, -⟩ := C19_rate_of_barrier k 450 kp (by norm_num)
  obtain ⟨c, hc⟩ := C67_defined_partial db_CO o.pressures 450 P0 (by norm_num) P0_pos (by
    intro _ t ht; simp only [List.mem_singleton] at ht; subst ht; norm_num)
  have hrel : relOf o.rxns rel rxn = .ok (⟨0, 2, -2⟩ : Rel1 ℝ) :=
    relOf_ok.mpr ⟨by simp [o], _, _, _, rfl, rfl, rfl, by simp [o]⟩
  have hp : ∀ b, pressureCT o b fCO.text = .ok P0 := by
    intro b
    unfold pressureCT dictGet
    cases b
    · rfl
    · rw [if_pos rfl, show get? o.pressures fCO.text = some 1 from rfl]
      show Except.ok (P0 * 1) = _
      rw [mul_one]
  have key : ∀ b, ∃ rr, 0 < rr ∧ ∀ b', b' = b → ratesCT o rel b' rxn = .ok (k, rr) ∧
      kTST (if g - (-2 - (fCO.stoich : ℝ) * c) < 0 then 0 else g - (-2 - (fCO.stoich : ℝ) * c)) 450 = .ok rr := by
    intro b
    obtain ⟨rr, hrr, rrp, -⟩ := C16_positive_decreasing 450 (by norm_num)
      (if g - (-2 - (fCO.stoich : ℝ) * c) < 0 then 0 else g - (-2 - (fCO.stoich : ℝ) * c))
    refine ⟨rr, rrp, ?_⟩
    rintro b' rfl
    refine ⟨?_, hrr⟩
    unfold ratesCT
    rw [show eqnFormulas rxn = .ok
      [[fCO, ⟨str! "O_s", 1, str! "O", 1, str! "s", str! "O_s"⟩],
       [⟨str! "CO2_g", 1, str! "CO2", 1, str! "g", str! "CO2_g"⟩,
        ⟨str! "*_s", 1, str! "*", 1, str! "s", str! "*_s"⟩]] by decide, hrel]
    simp only [bind, Except.bind, List.head?_cons, List.getLast?_cons_cons, List.getLast?_singleton]
    rw [show List.find? (fun x : Formula => decide (x.type = .gas))
      [fCO, ⟨str! "O_s", 1, str! "O", 1, str! "s", str! "O_s"⟩] = some fCO by decide]
    simp only [show molecularMass fCO.species = _ from db_CO.mass]
    rw [if_neg (by norm_num [o]), if_neg (by simp [o])]
    simp only [hp, pure, Except.pure, show kCT 0 o.area o.actRatio _ o.T P0 1 = _ from hk,
      show barrierFromCT k o.T = _ from hg, show entropyCorrection o.pressures o.T (some P0) fCO.text = .ok c from hc,
      show kTST _ o.T = _ from hrr]
  obtain ⟨r1, p1, k1⟩ := key false
  obtain ⟨r2, p2, k2⟩ := key true
  obtain ⟨a1, b1⟩ := k1 _ rfl
  obtain ⟨a2, b2⟩ := k2 _ rfl
  rw [b1] at b2; cases b2
  refine ⟨k, r1, r1, a1, a2, fun h => hq ?_⟩
  have : (q - 1) * r1 = 0 := by linarith
  rcases mul_eq_zero.mp this with h | h
  · linarith
  · exact absurd h p1.ne'

/-! ## C68 incomplete energies -/

/-- Energies without reverse barriers are rejected as a parameter error before anything else. -/
theorem C68_missing_reverse (o : RateOwner) (algo : RateAlgo) (rel : RelDict ℝ) (h : rel.gar = none) :
    rateConstants o algo rel = .error .ParameterError := by
  unfold rateConstants
  rw [if_pos (by rw [h]; rfl)]

/-- Energies without forward barriers are not rejected by the check: the failure is a `KeyError`
inside the computation. -/
theorem C68_missing_forward_refuted (o : RateOwner) (rel : RelDict ℝ) (l : List ℝ) (hg : rel.gar = some l)
    (h : rel.gaf = none) (hne : o.rxns ≠ []) : rateConstants o .TST rel = .error .KeyError := by
  unfold rateConstants
  rw [if_neg (by rw [hg]; exact Bool.false_ne_true)]
  cases hr : o.rxns with
  | nil => exact absurd hr hne
  | cons r rs =>
    have : ratesTST o rel false r = .error .KeyError := by
      unfold ratesTST relOf entryAt
      rw [hr, if_neg (by simp), h]
      rfl
    simp only [List.mapM_cons, this]
    rfl

/-- Energies with both barriers but without reaction energies fail too, although the
documentation asks for the barriers only. -/
theorem C68_missing_reaction_energy_refuted (o : RateOwner) (rel : RelDict ℝ) (a b : ℝ) (r : Str)
    (ho : o.rxns = [r]) (hf : rel.gaf = some [a]) (hg : rel.gar = some [b]) (h : rel.dg = none) :
    rateConstants o .TST rel = .error .KeyError := by
  unfold rateConstants
  rw [if_neg (by rw [hg]; exact Bool.false_ne_true), ho]
  have : ratesTST o rel false r = .error .KeyError := by
    unfold ratesTST relOf entryAt
    rw [ho, if_neg (by simp), h, hf, hg]
    simp [bind, Except.bind]
  simp only [List.mapM_cons, this]
  rfl

/-- An unknown method is rejected. -/
theorem C68_unknown_method (o : RateOwner) (rel : RelDict ℝ) (l : List ℝ) (h : rel.gar = some l) :
    rateConstants o .other rel = .error .ValueError := by
  unfold rateConstants
  rw [if_neg (by rw [h]; exact Bool.false_ne_true)]
  rfl

/-- With transition state theory the rate constants are defined exactly if the three lists reach to
the first position of every reaction; if one of them is shorter, the error is that of the index. -/
theorem C68_short_lists (o : RateOwner) (gaf gar dg : List ℝ) (hT : 0 < o.T) :
    ((∃ k, rateConstants o .TST ⟨some gaf, some gar, some dg⟩ = .ok k) ↔
      ∀ r ∈ o.rxns, o.rxns.idxOf r < gaf.length ∧ o.rxns.idxOf r < gar.length ∧ o.rxns.idxOf r < dg.length) ∧
    (¬ (∀ r ∈ o.rxns, o.rxns.idxOf r < gaf.length ∧ o.rxns.idxOf r < gar.length ∧ o.rxns.idxOf r < dg.length) →
      rateConstants o .TST ⟨some gaf, some gar, some dg⟩ = .error .IndexError) := by
  have entry : ∀ (l : List ℝ) (i : Nat), (i < l.length → ∃ x, entryAt (some l) i = .ok x) ∧
      (¬ i < l.length → entryAt (some l) i = .error .IndexError) := by
    intro l i
    unfold entryAt
    dsimp only
    refine ⟨fun h => ?_, fun h => ?_⟩
    · rw [List.getElem?_eq_getElem h]; exact ⟨_, rfl⟩
    · rw [List.getElem?_eq_none (not_lt.mp h)]
  have one : ∀ r ∈ o.rxns, ((o.rxns.idxOf r < gaf.length ∧ o.rxns.idxOf r < gar.length ∧ o.rxns.idxOf r < dg.length) →
      ∃ k, ratesTST o ⟨some gaf, some gar, some dg⟩ false r = .ok k) ∧
      (¬ (o.rxns.idxOf r < gaf.length ∧ o.rxns.idxOf r < gar.length ∧ o.rxns.idxOf r < dg.length) →
        ratesTST o ⟨some gaf, some gar, some dg⟩ false r = .error .IndexError) := by
    intro r hr
    obtain ⟨a1, a2⟩ := entry gaf (o.rxns.idxOf r)
    obtain ⟨b1, b2⟩ := entry gar (o.rxns.idxOf r)
    obtain ⟨c1, c2⟩ := entry dg (o.rxns.idxOf r)
    refine ⟨fun ⟨h1, h2, h3⟩ => ?_, fun h => ?_⟩
    · obtain ⟨kf, hf, -⟩ := C16_positive_decreasing o.T hT gaf[o.rxns.idxOf r]
      obtain ⟨kr, hk, -⟩ := C16_positive_decreasing o.T hT gar[o.rxns.idxOf r]
      exact ⟨(kf, kr), ratesTST_ok.mpr ⟨⟨gaf[o.rxns.idxOf r], gar[o.rxns.idxOf r], dg[o.rxns.idxOf r]⟩,
        relOf_ok.mpr ⟨hr, _, _, _, rfl, rfl, rfl, List.getElem?_eq_getElem h1, List.getElem?_eq_getElem h2,
          List.getElem?_eq_getElem h3⟩, hf, hk⟩⟩
    · unfold ratesTST relOf
      rw [if_neg (not_not.mpr hr)]
      by_cases h1 : o.rxns.idxOf r < gaf.length
      · obtain ⟨x, hx⟩ := a1 h1
        by_cases h2 : o.rxns.idxOf r < gar.length
        · obtain ⟨y, hy⟩ := b1 h2
          simp only [hx, hy, c2 (fun h3 => h ⟨h1, h2, h3⟩), bind, Except.bind]
        · simp only [hx, b2 h2, bind, Except.bind]
      · simp only [a2 h1, bind, Except.bind]
  have many : ∀ l : List Str, (∀ r ∈ l, r ∈ o.rxns) →
      ¬ (∀ r ∈ l, o.rxns.idxOf r < gaf.length ∧ o.rxns.idxOf r < gar.length ∧ o.rxns.idxOf r < dg.length) →
      l.mapM (ratesTST o ⟨some gaf, some gar, some dg⟩ false) = .error .IndexError := by
    intro l
    induction l with
    | nil => intro _ h; exact absurd (fun r hr => (nomatch hr)) h
    | cons r l ih =>
      intro hl h
      rw [List.mapM_cons]
      by_cases hr : o.rxns.idxOf r < gaf.length ∧ o.rxns.idxOf r < gar.length ∧ o.rxns.idxOf r < dg.length
      · obtain ⟨k, hk⟩ := (one r (hl r (by simp))).1 hr
        rw [hk, ih (fun r' h' => hl r' (by simp [h'])) (fun h' => h (by
          intro r' hr'
          rcases List.mem_cons.mp hr' with rfl | hr'
          · exact hr
          · exact h' r' hr'))]
        rfl
      · rw [(one r (hl r (by simp))).2 hr]; rfl
  have hbad : ¬ (∀ r ∈ o.rxns, o.rxns.idxOf r < gaf.length ∧ o.rxns.idxOf r < gar.length ∧ o.rxns.idxOf r < dg.length) →
      rateConstants o .TST ⟨some gaf, some gar, some dg⟩ = .error .IndexError := by
    intro h
    unfold rateConstants
    rw [if_neg (by simp)]
    simp only [many _ (fun _ h => h) h]
    rfl
  refine ⟨⟨?_, ?_⟩, hbad⟩
  · rintro ⟨k, hk⟩
    by_contra h
    rw [hbad h] at hk
    cases hk
  · intro h
    obtain ⟨ks, hks⟩ := mapM_ok_exists (f := ratesTST o ⟨some gaf, some gar, some dg⟩ false) (l := o.rxns)
      (fun r hr => (one r hr).1 (h r hr))
    unfold rateConstants
    rw [if_neg (by simp)]
    simp only [hks]
    exact ⟨_, rfl⟩

example : rateConstants ⟨[str! "CO_g + *_s -> CO_s", str! "O2_g + 2*_s -> 2O_s"], 450, [], 0, 0, false⟩ .TST
    ⟨some [0, 1], some [2], some [-2, 1]⟩ = .error .IndexError :=
  (C68_short_lists _ _ _ _ (by norm_num)).2 (fun h => absurd (h (str! "O2_g + 2*_s -> 2O_s") (by simp)).2.1 (by
    rw [show List.idxOf (str! "O2_g + 2*_s -> 2O_s") [str! "CO_g + *_s -> CO_s", str! "O2_g + 2*_s -> 2O_s"] = 1 by decide]
    simp))

end Verif
