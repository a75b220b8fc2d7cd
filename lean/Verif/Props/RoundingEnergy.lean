import Verif.Model.RoundingEnergy
import Verif.Props.Rounding2
import Verif.Props.Energy
/-
C131: energies, barriers and equilibrium constants in finite precision.
-/
namespace Verif
open Dict

/-- The sizes of the energies of a state, added up. -/
noncomputable def stateSize (G : Str → ℝ) (fs : List Formula) : ℝ :=
  (fs.map fun f => (f.stoich : ℝ) * |G (if '*' ∈ f.speciesSite then '*' :: '_' :: f.site else f.speciesSite)|).sum

theorem stateSize_nonneg (G : Str → ℝ) (fs : List Formula) : 0 ≤ stateSize G fs := by
  unfold stateSize
  refine List.sum_nonneg ?_
  simp only [List.mem_map, forall_exists_index, and_imp]
  rintro x f - rfl
  positivity

theorem specEnergy_size (G : Str → ℝ) (fs : List Formula) : |specEnergy G fs| ≤ stateSize G fs := by
  induction fs with
  | nil => simp [specEnergy, stateSize]
  | cons f fs ih =>
    unfold specEnergy stateSize at ih ⊢
    rw [List.map_cons, List.sum_cons, List.map_cons, List.sum_cons]
    refine le_trans (abs_add_le _ _) (add_le_add (le_of_eq ?_) ih)
    rw [abs_mul, abs_of_nonneg (Nat.cast_nonneg f.stoich)]

theorem rdStateEnergyFrom_near {A : Arith} {u : ℝ} (h : A.Rounds u) {E : Dict Str ℝ} {G : Str → ℝ} (hG : Extends G E) (fs : List Formula)
    (n : Nat) (s s' B : ℝ) (hs : |s - s'| ≤ ((1 + u) ^ (n + 1) - 1) * B) (hB : |s'| ≤ B) :
    RelPy (fun x y => |x - y| ≤ ((1 + u) ^ (n + 1 + fs.length) - 1) * (B + stateSize G fs)) (rdStateEnergyFrom A E fs s) (stateEnergyFrom E fs s') := by
  induction fs generalizing n s s' B with
  | nil => simpa [rdStateEnergyFrom, stateEnergyFrom, RelPy, stateSize] using hs
  | cons f fs ih =>
    unfold rdStateEnergyFrom stateEnergyFrom
    have hB0 : 0 ≤ B := le_trans (abs_nonneg _) hB
    cases hd : dictGet E (if '*' ∉ f.speciesSite then f.speciesSite else '*' :: '_' :: f.site) with
    | error e => exact rfl
    | ok e =>
      have he : e = G (if '*' ∈ f.speciesSite then '*' :: '_' :: f.site else f.speciesSite) := by
        have := hG _ _ (by
          unfold dictGet at hd
          split at hd
          · rename_i v hv
            cases hd
            exact hv
          · cases hd)
        rw [← this]
        split_ifs <;> simp_all
      have hsz : stateSize G (f :: fs) = |(f.stoich : ℝ) * e| + stateSize G fs := by
        unfold stateSize
        rw [List.map_cons, List.sum_cons, ← he, abs_mul, abs_of_nonneg (Nat.cast_nonneg (α := ℝ) f.stoich)]
      have hm := h.mul (f.stoich : ℝ) e
      have hstep := near_sumG h (c := 1 + u) (by have := h.nonneg; linarith) [A.mul (f.stoich : ℝ) e] [((f.stoich : ℝ) * e, |(f.stoich : ℝ) * e|)]
        (List.Forall₂.cons ⟨hm, le_refl _⟩ List.Forall₂.nil) n s s' B (by rwa [← pow_succ']) hB
      simp only [List.foldl_cons, List.foldl_nil, List.map_cons, List.map_nil, List.sum_cons, List.sum_nil, add_zero, List.length_cons,
        List.length_nil, zero_add, ← pow_succ'] at hstep
      have := ih (n + 1) (A.add s (A.mul (f.stoich : ℝ) e)) (s' + (f.stoich : ℝ) * e) (B + |(f.stoich : ℝ) * e|) hstep
        (le_trans (abs_add_le _ _) (add_le_add hB (le_refl _)))
      rw [hsz, ← add_assoc, List.length_cons, show n + 1 + (fs.length + 1) = n + 1 + 1 + fs.length by omega]
      exact this

/-- The computed energy of a state, with the exact one. -/
theorem C131_state (A : Arith) (u : ℝ) (h : A.Rounds u) (E : Dict Str ℝ) (G : Str → ℝ) (hG : Extends G E) (fs : List Formula) :
    RelPy (fun x y => |x - y| ≤ ((1 + u) ^ (fs.length + 1) - 1) * stateSize G fs) (rdStateEnergy A E fs) (stateEnergy E fs) := by
  have := rdStateEnergyFrom_near h hG fs 0 0 0 0 (by simp) (by simp)
  rw [zero_add, zero_add, Nat.add_comm 1] at this
  exact this

/-- Every number that a difference of computed energies passes through. -/
theorem sub_near {A : Arith} {u : ℝ} (h : A.Rounds u) {L : Nat} {M x y x' y' : ℝ} (hx : |x' - x| ≤ ((1 + u) ^ (L + 1) - 1) * M)
    (hy : |y' - y| ≤ ((1 + u) ^ (L + 1) - 1) * M) (hxM : |x| ≤ M) (hyM : |y| ≤ M) :
    |A.sub x' y' - (x - y)| ≤ 2 * M * ((1 + u) ^ (L + 2) - 1) := by
  have h1 := h.sub x' y'
  unfold Within at h1
  rw [add_sub_cancel_left] at h1
  have hu := h.nonneg
  have e1 : |A.sub x' y' - (x - y)| ≤ |A.sub x' y' - (x' - y')| + (|x' - x| + |y' - y|) := by
    rw [show A.sub x' y' - (x - y) = (A.sub x' y' - (x' - y')) + ((x' - x) - (y' - y)) by ring]
    exact le_trans (abs_add_le _ _) (add_le_add (le_refl _) (abs_sub _ _))
  have e2 : |x' - y'| ≤ |x| + |y| + (|x' - x| + |y' - y|) := by
    rw [show x' - y' = (x - y) + ((x' - x) - (y' - y)) by ring]
    exact le_trans (abs_add_le _ _) (add_le_add (abs_sub _ _) (abs_sub _ _))
  have e3 := mul_le_mul_of_nonneg_left e2 hu
  rw [pow_succ _ (L + 1)]
  set q := (1 + u) ^ (L + 1)
  nlinarith

theorem rdStateEnergy_near {A : Arith} {u : ℝ} (h : A.Rounds u) {E : Dict Str ℝ} {G : Str → ℝ} (hG : Extends G E) {fs : List Formula} {L : Nat} {M : ℝ}
    (hL : fs.length ≤ L) (hM : stateSize G fs ≤ M) :
    RelPy (fun x y => |x - y| ≤ ((1 + u) ^ (L + 1) - 1) * M ∧ |y| ≤ M) (rdStateEnergy A E fs) (stateEnergy E fs) := by
  have h1 := C131_state A u h E G hG fs
  have hu := h.nonneg
  cases hy : stateEnergy E fs with
  | error e =>
    rw [hy] at h1
    cases hx : rdStateEnergy A E fs with
    | error e' => rwa [hx] at h1
    | ok x => rw [hx] at h1; exact h1.elim
  | ok y =>
    rw [hy] at h1
    cases hx : rdStateEnergy A E fs with
    | error e' => rw [hx] at h1; exact h1.elim
    | ok x =>
      rw [hx] at h1
      refine ⟨le_trans h1 (mul_le_mul (sub_le_sub_right (pow_le_pow_right₀ (by linarith) (by omega)) _) hM (stateSize_nonneg G fs) ?_), ?_⟩
      · have := h.one_le (L + 1)
        linarith
      · rw [(stateEnergy_ok hG hy).1]
        exact le_trans (specEnergy_size G fs) hM

/-- Barriers and reaction energy computed from absolute energies, with the exact ones: the error is a rounding error of the
energies of the states, however small the differences are. -/
theorem C131_barriers (A : Arith) (u : ℝ) (h : A.Rounds u) (E : Dict Str ℝ) (G : Str → ℝ) (hG : Extends G E) (rxn : Str) (L : Nat) (M : ℝ)
    (hM0 : 0 ≤ M) (hL : ∀ states, eqnFormulas rxn = .ok states → ∀ fs ∈ states, fs.length ≤ L ∧ stateSize G fs ≤ M) :
    RelPy (fun v w => |v.gaf - w.gaf| ≤ 2 * M * ((1 + u) ^ (L + 2) - 1) ∧ |v.gar - w.gar| ≤ 2 * M * ((1 + u) ^ (L + 2) - 1) ∧
      |v.dg - w.dg| ≤ 2 * M * ((1 + u) ^ (L + 2) - 1)) (rdSingleRelative A E rxn) (singleRelative E rxn) := by
  unfold rdSingleRelative singleRelative
  cases hst : eqnFormulas rxn with
  | error e => exact rfl
  | ok states =>
    have hL := hL states hst
    have hu := h.nonneg
    refine relPy_bind (R := fun a b => a = states ∧ b = states) ⟨rfl, rfl⟩ ?_
    rintro a b ⟨rfl, rfl⟩
    cases his : b.head? with
    | none => exact rfl
    | some is =>
      cases hfs : b.getLast? with
      | none => exact rfl
      | some fs =>
        dsimp only
        obtain ⟨l1, m1⟩ := hL is (List.mem_of_head? his)
        obtain ⟨l2, m2⟩ := hL fs (List.mem_of_getLast? hfs)
        refine relPy_bind (rdStateEnergy_near h hG l1 m1) fun x x' hx => ?_
        refine relPy_bind (rdStateEnergy_near h hG l2 m2) fun y y' hy => ?_
        have hq := h.one_le (L + 1)
        have fin : ∀ z z' : ℝ, (|z - z'| ≤ ((1 + u) ^ (L + 1) - 1) * M ∧ |z'| ≤ M) →
            |A.sub z x - (z' - x')| ≤ 2 * M * ((1 + u) ^ (L + 2) - 1) ∧ |A.sub z y - (z' - y')| ≤ 2 * M * ((1 + u) ^ (L + 2) - 1) ∧
              |A.sub y x - (y' - x')| ≤ 2 * M * ((1 + u) ^ (L + 2) - 1) := fun z z' hz =>
          ⟨sub_near h hz.1 hx.1 hz.2 hx.2, sub_near h hz.1 hy.1 hz.2 hy.2, sub_near h hy.1 hx.1 hy.2 hx.2⟩
        by_cases h2 : b.length = 2
        · rw [if_pos h2, if_pos h2]
          refine fin (max x y) (max x' y') ⟨le_trans (abs_max_sub_max_le_max _ _ _ _) (max_le hx.1 hy.1), ?_⟩
          rcases max_choice x' y' with e | e <;> rw [e]
          · exact hx.2
          · exact hy.2
        rw [if_neg h2, if_neg h2]
        by_cases h3 : b.length = 3
        · rw [if_pos h3, if_pos h3]
          cases hts : b[1]? with
          | none => exact rfl
          | some ts =>
            obtain ⟨l3, m3⟩ := hL ts (List.mem_of_getElem? hts)
            exact relPy_bind (rdStateEnergy_near h hG l3 m3) fun z z' hz => fin z z' hz
        · rw [if_neg h3, if_neg h3]
          refine fin 0 0 ⟨?_, by simpa using hM0⟩
          simpa using mul_nonneg (by linarith) hM0

theorem rdSingleRelative_ok {A : Arith} {E : Dict Str ℝ} {rxn : Str} {v : Rel1 ℝ} (h : rdSingleRelative A E rxn = .ok v) :
    ∃ x y z, v = ⟨A.sub z x, A.sub z y, A.sub y x⟩ ∧ ∃ states, eqnFormulas rxn = .ok states ∧ (states.length = 2 → z = max x y) := by
  unfold rdSingleRelative at h
  obtain ⟨states, hst, h⟩ := bind_ok.mp h
  cases his : states.head? with
  | none => rw [his] at h; cases h
  | some is =>
    cases hfs : states.getLast? with
    | none => rw [his, hfs] at h; cases h
    | some fs =>
      rw [his, hfs] at h
      dsimp only at h
      obtain ⟨x, hx, h⟩ := bind_ok.mp h
      obtain ⟨y, hy, h⟩ := bind_ok.mp h
      by_cases h2 : states.length = 2
      · rw [if_pos h2] at h
        cases h
        exact ⟨x, y, max x y, rfl, states, hst, fun _ => rfl⟩
      rw [if_neg h2] at h
      by_cases h3 : states.length = 3
      · rw [if_pos h3] at h
        cases hts : states[1]? with
        | none => rw [hts] at h; cases h
        | some ts =>
          rw [hts] at h
          dsimp only at h
          obtain ⟨z, hz, h⟩ := bind_ok.mp h
          cases h
          exact ⟨x, y, z, rfl, states, hst, fun e => absurd e h2⟩
      · rw [if_neg h3] at h
        cases h
        exact ⟨x, y, 0, rfl, states, hst, fun e => absurd e h2⟩

theorem sub_size {A : Arith} {u : ℝ} (h : A.Rounds u) (hu : u < 1) (x y : ℝ) : |A.sub x y - (x - y)| ≤ u / (1 - u) * |A.sub x y| := by
  have h1 := h.sub x y
  have h0 := h.nonneg
  unfold Within at h1
  rw [add_sub_cancel_left] at h1
  have h2 := abs_sub_abs_le_abs_sub (x - y) (A.sub x y)
  rw [abs_sub_comm (x - y)] at h2
  have h3 : (1 - u) * |x - y| ≤ |A.sub x y| := by linarith
  have h4 : |x - y| ≤ |A.sub x y| / (1 - u) := by
    rw [le_div_iff₀ (by linarith)]
    linarith
  calc |A.sub x y - (x - y)| ≤ u * |x - y| := h1
    _ ≤ u * (|A.sub x y| / (1 - u)) := mul_le_mul_of_nonneg_left h4 h0
    _ = u / (1 - u) * |A.sub x y| := by ring

/-- The difference of the barriers is the reaction energy up to roundings of these three numbers, whatever the size of the
absolute energies. Without a transition state it is the reaction energy exactly, if differences only change their sign when
exchanged. -/
theorem C131_consistent (A : Arith) (u : ℝ) (h : A.Rounds u) (hu : u < 1) (E : Dict Str ℝ) (rxn : Str) (v : Rel1 ℝ)
    (hv : rdSingleRelative A E rxn = .ok v) :
    |v.gaf - v.gar - v.dg| ≤ u / (1 - u) * (|v.gaf| + |v.gar| + |v.dg|) ∧
    ((∀ x y, A.sub x y = -A.sub y x) → ∀ states, eqnFormulas rxn = .ok states → states.length = 2 →
      v.gaf - v.gar = v.dg ∧ (v.gaf = 0 ∨ v.gar = 0)) := by
  obtain ⟨x, y, z, rfl, states, hst, h2⟩ := rdSingleRelative_ok hv
  refine ⟨?_, ?_⟩
  · have a1 := abs_le.mp (sub_size h hu z x)
    have a2 := abs_le.mp (sub_size h hu z y)
    have a3 := abs_le.mp (sub_size h hu y x)
    dsimp only
    rw [abs_le]
    constructor <;> nlinarith
  · intro hanti states' hst' hl
    rw [hst] at hst'
    cases hst'
    have hz := h2 hl
    have hself : ∀ x, A.sub x x = 0 := fun x => by
      have := hanti x x
      linarith
    dsimp only
    rcases le_total x y with e | e
    · rw [hz, max_eq_right e, hself]
      exact ⟨by ring, Or.inr rfl⟩
    · rw [hz, max_eq_left e, hself, hanti y x]
      exact ⟨by ring, Or.inl rfl⟩

theorem exp_near {x y D : ℝ} (h : |x - y| ≤ D) : Within (Real.exp D) (Real.exp x) (Real.exp y) := by
  have hD0 : 0 ≤ D := le_trans (abs_nonneg _) h
  unfold Within
  have e1 : Real.exp x - Real.exp y = (Real.exp (x - y) - 1) * Real.exp y := by
    rw [sub_mul, ← Real.exp_add]
    simp
  rw [e1, abs_mul]
  refine mul_le_mul_of_nonneg_right ?_ (abs_nonneg _)
  obtain ⟨l1, l2⟩ := abs_le.mp h
  rw [abs_le]
  constructor
  · have e2 : Real.exp (-D) ≤ Real.exp (x - y) := Real.exp_le_exp.mpr l1
    have e3 : Real.exp (-D) * Real.exp D = 1 := by rw [← Real.exp_add]; simp
    have e4 := Real.exp_pos (-D)
    nlinarith [sq_nonneg (Real.exp D - 1), Real.exp_pos D, Real.one_le_exp hD0]
  · have : Real.exp (x - y) ≤ Real.exp D := Real.exp_le_exp.mpr l2
    linarith

/-- Detailed balance in finite precision: the ratio of the computed rate constants is the equilibrium constant of the
computed reaction energy, up to the rounding of the constants and the inconsistency `D` of the barriers. -/
theorem C131_balance (B : Arith) (w : ℝ) (hB : B.Rounds w) (hw : w < 1) (T : ℝ) (v : Rel1 ℝ) (X D c : ℝ)
    (hX : |v.gaf / (kBeV * T)| ≤ X ∧ |v.gar / (kBeV * T)| ≤ X) (hD : |(v.gaf - v.gar - v.dg) / (kBeV * T)| ≤ D)
    (hc : c = (1 + w) ^ 4 * Real.exp (2 * w / (1 - w) * X)) (hc2 : c < 2) (kf kr : ℝ) (h1 : rdKTST B v.gaf T = .ok kf) (h2 : rdKTST B v.gar T = .ok kr) :
    Within (c / (2 - c) * Real.exp D) (kf / kr) (Real.exp (-v.dg / (kBeV * T))) := by
  have hw0 := hB.nonneg
  have hmono : ∀ x, x ≤ X → (1 + w) ^ 4 * Real.exp (2 * w / (1 - w) * x) ≤ c := by
    intro x hx
    rw [hc]
    refine mul_le_mul_of_nonneg_left (Real.exp_le_exp.mpr (mul_le_mul_of_nonneg_left hx ?_)) (by positivity)
    exact div_nonneg (by linarith) (by linarith)
  have hc1 : 1 ≤ c := by
    refine le_trans ?_ (hmono 0 (le_trans (abs_nonneg _) hX.1))
    simpa using hB.one_le 4
  have g1 := C130_constant B w hB hw v.gaf T
  have g2 := C130_constant B w hB hw v.gar T
  rw [h1] at g1
  rw [h2] at g2
  obtain ⟨kf', e1, g1⟩ := relPy_ok_left g1
  obtain ⟨kr', e2, g2⟩ := relPy_ok_left g2
  have hd := near_div hc1 hc1 hc2 (near_mono g1 (hmono _ hX.1)) (near_mono g2 (hmono _ hX.2))
  unfold kTST at e1 e2
  by_cases hT : T = 0
  · rw [if_pos hT] at e1
    cases e1
  rw [if_neg hT] at e1 e2
  have e1 := Except.ok.inj e1
  have e2 := Except.ok.inj e2
  have hk := kBeV_pos
  have hh := heV_pos
  have hq : kf' / kr' = Real.exp (-v.gaf / (kBeV * T) - -v.gar / (kBeV * T)) := by
    rw [← e1, ← e2, Real.exp_sub]
    field_simp
  refine near_trans ?_ hd ?_
  · rw [le_div_iff₀ (by linarith)]
    linarith
  rw [hq]
  refine exp_near ?_
  refine le_trans (le_of_eq ?_) hD
  rw [← abs_neg]
  congr 1
  field_simp
  ring


theorem rdRelative_ok {A : Arith} {E : Dict Str ℝ} {rxns : List Str} {r : Rel ℝ} (h : rdRelative A E rxns = .ok r) :
    ∃ l, rxns.mapM (rdSingleRelative A E) = .ok l ∧ r = ⟨l.map (·.gaf), l.map (·.gar), l.map (·.dg)⟩ := by
  unfold rdRelative at h
  obtain ⟨l, hl, h⟩ := bind_ok.mp h
  exact ⟨l, hl, (Except.ok.inj h).symm⟩

/-- A model read from absolute energies: every reaction has rate constants, which are positive, and their ratio is the
equilibrium constant of its computed reaction energy up to rounding. `u` is the precision of the energies, `w` the one of the
rate constants. -/
theorem C131_absolute (A : Arith) (u : ℝ) (hA : A.Rounds u) (hu : u < 1) (B : Arith) (w : ℝ) (hB : B.Rounds w) (hw : w < 1)
    (E : Dict Str ℝ) (o : RateOwner) (r : Rel ℝ) (hT : 0 < o.T) (hr : rdRelative A E o.rxns = .ok r) (X c : ℝ)
    (hX : ∀ rxn ∈ o.rxns, ∀ v, rdSingleRelative A E rxn = .ok v →
      |v.gaf / (kBeV * o.T)| ≤ X ∧ |v.gar / (kBeV * o.T)| ≤ X ∧ |v.dg / (kBeV * o.T)| ≤ X)
    (hc : c = (1 + w) ^ 4 * Real.exp (2 * w / (1 - w) * X)) (hc2 : c < 2) (rxn : Str) (hx : rxn ∈ o.rxns) :
    ∃ v kf kr, rdSingleRelative A E rxn = .ok v ∧ rdRatesTST B o ⟨some r.gaf, some r.gar, some r.dg⟩ rxn = .ok (kf, kr) ∧ 0 < kf ∧ 0 < kr ∧
      Within (c / (2 - c) * Real.exp (3 * u / (1 - u) * X)) (kf / kr) (Real.exp (-v.dg / (kBeV * o.T))) := by
  obtain ⟨l, hl, rfl⟩ := rdRelative_ok hr
  obtain ⟨l1, l2⟩ := mapM_ok_inv hl
  have hlt : o.rxns.idxOf rxn < o.rxns.length := List.idxOf_lt_length_of_mem hx
  have hv := l2 _ hlt (by omega)
  rw [List.getElem_idxOf] at hv
  set v := l[o.rxns.idxOf rxn]'(by omega) with hvd
  have hg : l[o.rxns.idxOf rxn]? = some v := List.getElem?_eq_getElem (by omega)
  have hrel : relOf o.rxns ⟨some (l.map (·.gaf)), some (l.map (·.gar)), some (l.map (·.dg))⟩ rxn = .ok v :=
    relOf_ok.mpr ⟨hx, _, _, _, rfl, rfl, rfl, by simp [hg], by simp [hg], by simp [hg]⟩
  obtain ⟨b1, b2, b3⟩ := hX rxn hx v hv
  have hw0 := hB.nonneg
  have hmono : ∀ x, x ≤ X → (1 + w) ^ 4 * Real.exp (2 * w / (1 - w) * x) ≤ c := by
    intro x hx
    rw [hc]
    refine mul_le_mul_of_nonneg_left (Real.exp_le_exp.mpr (mul_le_mul_of_nonneg_left hx ?_)) (by positivity)
    exact div_nonneg (by linarith) (by linarith)
  have pos : ∀ Ga, |Ga / (kBeV * o.T)| ≤ X → ∃ k, rdKTST B Ga o.T = .ok k ∧ 0 < k := by
    intro Ga hGa
    have g := C130_constant B w hB hw Ga o.T
    obtain ⟨k, hk, hk0, -⟩ := C16_positive_decreasing o.T hT Ga
    rw [hk] at g
    obtain ⟨k', hk', g⟩ := relPy_ok_right g
    exact ⟨k', hk', (near_pos (lt_of_le_of_lt (hmono _ hGa) hc2) g).mpr hk0⟩
  obtain ⟨kf, hkf, pf⟩ := pos v.gaf b1
  obtain ⟨kr, hkr, pr⟩ := pos v.gar b2
  refine ⟨v, kf, kr, hv, ?_, pf, pr, ?_⟩
  · unfold rdRatesTST
    rw [hrel]
    show (do let rf ← rdKTST B v.gaf o.T; let rr ← rdKTST B v.gar o.T; pure (rf, rr) : Py (ℝ × ℝ)) = _
    rw [hkf, hkr]
    rfl
  · refine C131_balance B w hB hw o.T v X _ c ⟨b1, b2⟩ ?_ hc hc2 kf kr hkf hkr
    have hcons := (C131_consistent A u hA hu E rxn v hv).1
    have hu0 := hA.nonneg
    have hk : 0 < kBeV * o.T := mul_pos kBeV_pos hT
    rw [abs_div, abs_of_pos hk, div_le_iff₀ hk] at b1 b2 b3 ⊢
    have hq : 0 ≤ u / (1 - u) := div_nonneg hu0 (by linarith)
    calc |v.gaf - v.gar - v.dg| ≤ u / (1 - u) * (|v.gaf| + |v.gar| + |v.dg|) := hcons
      _ ≤ u / (1 - u) * (3 * (X * (kBeV * o.T))) := mul_le_mul_of_nonneg_left (by linarith) hq
      _ = 3 * u / (1 - u) * X * (kBeV * o.T) := by ring

/-- Energies given as barriers and reaction energies: these two are taken as they are (with the repair of barriers of zero),
and only the reverse barrier is rounded; it is zero where the barrier was repaired. -/
theorem C131_data (A : Arith) (u : ℝ) (h : A.Rounds u) (hu : u < 1) (ga dg : List ℝ) (r : Rel ℝ)
    (hr : rdRelFromData A ⟨some ga, some dg⟩ = .ok r) :
    ∃ r', relFromData ⟨some ga, some dg⟩ = .ok r' ∧ r.gaf = r'.gaf ∧ r.dg = r'.dg ∧ r.gar.length = r'.gar.length ∧
      ∀ (i : Nat) (gf g d : ℝ), r.gaf[i]? = some gf → r.gar[i]? = some g → r.dg[i]? = some d →
        |gf - g - d| ≤ u / (1 - u) * |g| ∧ (gf = d → g = 0) := by
  unfold rdRelFromData at hr
  dsimp only at hr
  have hr := Except.ok.inj hr
  subst hr
  refine ⟨_, rfl, rfl, rfl, by simp, ?_⟩
  intro i gf g d h1 h2 h3
  dsimp only at h1 h2 h3
  rw [List.getElem?_map, (List.getElem?_zip_eq_some (z := (gf, d))).mpr ⟨h1, h3⟩] at h2
  have e := Option.some.inj h2
  dsimp only at e
  subst e
  have hs := sub_size h hu gf d
  refine ⟨?_, ?_⟩
  · rw [abs_sub_comm] at hs
    rwa [show gf - A.sub gf d - d = gf - d - A.sub gf d by ring]
  · rintro rfl
    have := h.sub gf gf
    unfold Within at this
    rw [sub_self, sub_zero, abs_zero, mul_zero] at this
    exact abs_eq_zero.mp (le_antisymm this (abs_nonneg _))

theorem zip_sum_near {α : Type} (f : α → ℝ) (g : α → ℝ) (b : ℝ) (l : List (ℝ × α)) (h : ∀ p ∈ l, |f p.2 - g p.2| ≤ b) :
    |(l.map fun p => p.1 * f p.2).sum - (l.map fun p => p.1 * g p.2).sum| ≤ b * (l.map fun p => |p.1|).sum := by
  induction l with
  | nil => simp
  | cons p l ih =>
    have ih := ih fun q hq => h q (List.mem_cons_of_mem _ hq)
    have hp := h p List.mem_cons_self
    rw [List.map_cons, List.sum_cons, List.map_cons, List.sum_cons, List.map_cons, List.sum_cons, mul_add]
    rw [show p.1 * f p.2 + (l.map fun p => p.1 * f p.2).sum - (p.1 * g p.2 + (l.map fun p => p.1 * g p.2).sum) =
      p.1 * (f p.2 - g p.2) + ((l.map fun p => p.1 * f p.2).sum - (l.map fun p => p.1 * g p.2).sum) by ring]
    refine le_trans (abs_add_le _ _) (add_le_add ?_ ih)
    rw [abs_mul, mul_comm]
    exact mul_le_mul_of_nonneg_right hp (abs_nonneg _)

/-- Hess's law in finite precision: a combination of reactions in which every species cancels has a total computed reaction
energy that is zero up to rounding errors of the energies of the states. -/
theorem C131_cycles (A : Arith) (u : ℝ) (h : A.Rounds u) (E : Dict Str ℝ) (G : Str → ℝ) (hG : Extends G E) (rxns : List Str) (r : Rel ℝ) (c : List ℝ)
    (L : Nat) (M : ℝ) (hM0 : 0 ≤ M)
    (hL : ∀ rxn ∈ rxns, ∀ states, eqnFormulas rxn = .ok states → ∀ fs ∈ states, fs.length ≤ L ∧ stateSize G fs ≤ M)
    (hr : rdRelative A E rxns = .ok r) (hlen : c.length = rxns.length) (hnet : ∀ k, ((c.zip rxns).map fun p => p.1 * netCoef k p.2).sum = 0) :
    |((c.zip r.dg).map fun p => p.1 * p.2).sum| ≤ 2 * M * ((1 + u) ^ (L + 2) - 1) * (c.map fun x => |x|).sum := by
  obtain ⟨l, hl, rfl⟩ := rdRelative_ok hr
  have hrel := relPy_mapM_same (R := fun v w : Rel1 ℝ => |v.gaf - w.gaf| ≤ 2 * M * ((1 + u) ^ (L + 2) - 1) ∧ |v.gar - w.gar| ≤ 2 * M * ((1 + u) ^ (L + 2) - 1) ∧
      |v.dg - w.dg| ≤ 2 * M * ((1 + u) ^ (L + 2) - 1)) (l := rxns) (f := rdSingleRelative A E) (g := singleRelative E)
    (fun rxn hrxn => C131_barriers A u h E G hG rxn L M hM0 (hL rxn hrxn))
  rw [hl] at hrel
  obtain ⟨m, hm, hlm⟩ := relPy_ok_left hrel
  have hex : relativeFromAbsolute (some E) rxns = .ok ⟨m.map (·.gaf), m.map (·.gar), m.map (·.dg)⟩ := by
    unfold relativeFromAbsolute
    have : (rxns.mapM fun r => match some E with
      | none => (.error .AttributeError : Py (Rel1 ℝ))
      | some E => singleRelative E r) = .ok m := hm
    rw [this]
    rfl
  have hzero := C12_cycles E rxns _ c hex hnet
  dsimp only at hzero ⊢
  have hlen1 : l.length = rxns.length := (mapM_ok_inv hl).1
  have hlen2 := hlm.length_eq
  have hz := zip_sum_near (fun p : Rel1 ℝ × Rel1 ℝ => p.1.dg) (fun p => p.2.dg) (2 * M * ((1 + u) ^ (L + 2) - 1)) (c.zip (l.zip m)) (by
    rintro ⟨a, v, w⟩ hp
    have h1 := (List.of_mem_zip hp).2
    obtain ⟨i, hi⟩ := List.mem_iff_getElem?.mp h1
    obtain ⟨e1, e2⟩ := List.getElem?_zip_eq_some.mp hi
    exact ((List.forall₂_iff_zip.mp hlm).2 h1).2.2)
  have f1 : ((c.zip (l.zip m)).map fun p => p.1 * p.2.1.dg) = (c.zip (l.map (·.dg))).map fun p => p.1 * p.2 := by
    apply List.ext_getElem <;> simp [hlen2]
  have f2 : ((c.zip (l.zip m)).map fun p => p.1 * p.2.2.dg) = (c.zip (m.map (·.dg))).map fun p => p.1 * p.2 := by
    apply List.ext_getElem <;> simp [hlen2]
  have f3 : ((c.zip (l.zip m)).map fun p => |p.1|) = c.map fun x => |x| := by
    apply List.ext_getElem <;> simp [hlen, hlen1, ← hlen2]
  rw [f1, f2, f3, hzero, sub_zero] at hz
  exact hz

/-- Without rounding these are the energies of the other files. -/
theorem C131_exact (E : Dict Str ℝ) (rxns : List Str) (rxn : Str) (d : RelData ℝ) :
    rdSingleRelative Arith.exact E rxn = singleRelative E rxn ∧ rdRelative Arith.exact E rxns = relativeFromAbsolute (some E) rxns ∧
      rdRelFromData Arith.exact d = relFromData d := by
  have h0 : ∀ (fs : List Formula) (s : ℝ), rdStateEnergyFrom Arith.exact E fs s = stateEnergyFrom E fs s := by
    intro fs
    induction fs with
    | nil => exact fun _ => rfl
    | cons f fs ih =>
      intro s
      unfold rdStateEnergyFrom stateEnergyFrom
      exact congrArg _ (funext fun e => ih _)
  have h1 : ∀ fs, rdStateEnergy Arith.exact E fs = stateEnergy E fs := fun fs => h0 fs 0
  have h2 : ∀ rxn, rdSingleRelative Arith.exact E rxn = singleRelative E rxn := by
    intro rxn
    unfold rdSingleRelative singleRelative
    simp only [h1]
    rfl
  refine ⟨h2 rxn, ?_, ?_⟩
  · unfold rdRelative relativeFromAbsolute
    rw [show rdSingleRelative Arith.exact E = singleRelative E from funext h2]
  · obtain ⟨ga, dg⟩ := d
    cases ga <;> cases dg <;> rfl


/-! ## A reaction whose energies are not consistent -/

/-- An isomerisation with a transition state. -/
def isoRxn : Str := str! "A_s <-> X-Y_s -> B_s"

theorem isoRxn_states : eqnFormulas isoRxn = .ok
    [[⟨str! "A_s", 1, str! "A", 1, str! "s", str! "A_s"⟩], [⟨str! "X-Y_s", 1, str! "X-Y", 1, str! "s", str! "X-Y_s"⟩],
     [⟨str! "B_s", 1, str! "B", 1, str! "s", str! "B_s"⟩]] := by decide

/-- Its energies. -/
noncomputable def isoEnergies (a b t : ℝ) : Dict Str ℝ := [(str! "A_s", a), (str! "B_s", b), (str! "X-Y_s", t)]

theorem isoRxn_rel (A : Arith) (a b t : ℝ) : rdSingleRelative A (isoEnergies a b t) isoRxn =
    .ok ⟨A.sub (A.add 0 (A.mul (1 : ℕ) t)) (A.add 0 (A.mul (1 : ℕ) a)), A.sub (A.add 0 (A.mul (1 : ℕ) t)) (A.add 0 (A.mul (1 : ℕ) b)),
      A.sub (A.add 0 (A.mul (1 : ℕ) b)) (A.add 0 (A.mul (1 : ℕ) a))⟩ := by
  unfold rdSingleRelative
  rw [isoRxn_states]
  rfl

theorem roundTo_pow (p : Nat) (n : ℤ) : roundTo (p + 1) ((2 : ℝ) ^ n) = 2 ^ n := by
  have e := roundTo_eq (p := p + 1) (x := (2 : ℝ) ^ n) (n := 2 ^ p) (a := n) (le_refl _) (by
    rw [zpow_add₀ (by norm_num)]
    have := two_zpow_pos n
    linarith) (by
    push_cast
    rw [← zpow_add₀ (by norm_num), show n + ((p : ℤ) + 1 - 1 - n) = p by ring, zpow_natCast]
    norm_num)
  rw [e]
  push_cast
  rw [← zpow_natCast, ← zpow_add₀ (by norm_num)]
  congr 1
  ring

/-- For every precision there are energies for which the difference of the computed barriers is not the computed reaction
energy: the barriers agree although the reaction energy is not zero, so the equilibrium constant of the computed rate
constants is one. -/
theorem C131_consistent_refuted (p : Nat) :
    ∃ (E : Dict Str ℝ) (v : Rel1 ℝ), rdSingleRelative (Arith.digits (p + 1)) E isoRxn = .ok v ∧ v.gaf = v.gar ∧ 0 < v.dg ∧
      ∀ (B : Arith) (T kf kr : ℝ), rdKTST B v.gaf T = .ok kf → rdKTST B v.gar T = .ok kr → kf = kr := by
  have hb : (1 : ℝ) / (4 * 2 ^ p) = 2 ^ (-(p : ℤ) - 2) := by
    rw [zpow_sub₀ (by norm_num), zpow_neg, zpow_natCast]
    norm_num
    ring
  have e2 : roundTo (p + 1) 2 = 2 := by simpa using roundTo_pow p 1
  have e3 : roundTo (p + 1) (2 - 1 / (4 * 2 ^ p)) = 2 := by
    have ht : (1 : ℝ) ≤ 2 ^ p := one_le_pow₀ (by norm_num)
    have ht0 : (0 : ℝ) < 2 ^ p := by positivity
    have hq : (1 : ℝ) / (4 * 2 ^ p) ≤ 1 / 4 := one_div_le_one_div_of_le (by norm_num) (by linarith)
    have hq0 : (0 : ℝ) < 1 / (4 * 2 ^ p) := by positivity
    have e := roundTo_eq (p := p + 1) (x := 2 - 1 / (4 * 2 ^ p)) (n := 2 ^ (p + 1)) (a := 0) (by rw [zpow_zero]; linarith) (by rw [zero_add, zpow_one]; linarith) (by
      push_cast
      rw [show (p : ℤ) + 1 - 1 - 0 = p by ring, zpow_natCast, pow_succ,
        show ((2 : ℝ) - 1 / (4 * 2 ^ p)) * 2 ^ p - 2 ^ p * 2 = -(1 / 4) by field_simp; ring]
      norm_num)
    rw [e]
    push_cast
    rw [show (0 : ℤ) - (p + 1 - 1) = -p by ring, zpow_neg, zpow_natCast, pow_succ]
    field_simp
  have e4 : roundTo (p + 1) (1 / (4 * 2 ^ p)) = 1 / (4 * 2 ^ p) := by
    rw [hb]
    exact roundTo_pow p _
  have hv := isoRxn_rel (Arith.digits (p + 1)) 0 (1 / (4 * 2 ^ p)) 2
  simp only [Arith.digits, Nat.cast_one, one_mul, zero_add, roundTo_zero, e2, e3, e4, sub_zero] at hv
  refine ⟨_, _, hv, rfl, by positivity, ?_⟩
  intro B T kf kr h1 h2
  exact Except.ok.inj (h1.symm.trans h2)

/-! ## The hypotheses are met -/

theorem iso_rel53 : ∃ v, rdSingleRelative (Arith.digits 53) (isoEnergies 1 (1 / 2) 2) isoRxn = .ok v ∧ v.gaf = 1 ∧ v.gar = 3 / 2 ∧ v.dg = -(1 / 2) := by
  have e1 : roundTo 53 1 = 1 := by simpa using roundTo_pow 52 0
  have e2 : roundTo 53 2 = 2 := by simpa using roundTo_pow 52 1
  have e3 : roundTo 53 (1 / 2) = 1 / 2 := by simpa using roundTo_pow 52 (-1)
  have e4 : roundTo 53 (3 / 2) = 3 / 2 := by
    have e := roundTo_eq (p := 53) (x := 3 / 2) (n := 3 * 2 ^ 51) (a := 0) (by norm_num) (by norm_num) (by norm_num)
    rw [e]
    norm_num
  have e5 : roundTo 53 (-(1 / 2)) = -(1 / 2) := by
    have hl : Int.log 2 |(-(1 / 2) : ℝ)| = -1 := by
      rw [abs_neg, abs_of_pos (by norm_num), show (1 / 2 : ℝ) = ((2 : ℕ) : ℝ) ^ (-1 : ℤ) by norm_num]
      exact Int.log_zpow (by norm_num) _
    unfold roundTo
    rw [hl]
    norm_num
  have hv := isoRxn_rel (Arith.digits 53) 1 (1 / 2) 2
  simp only [Arith.digits, Nat.cast_one, one_mul, zero_add, e1, e2, e3] at hv
  rw [show (2 : ℝ) - 1 = 1 by norm_num, show (2 : ℝ) - 1 / 2 = 3 / 2 by norm_num, show (1 / 2 : ℝ) - 1 = -(1 / 2) by norm_num, e1, e4, e5] at hv
  exact ⟨_, hv, rfl, rfl, rfl⟩

/-- The reaction in the other direction. -/
def isoBack : Str := str! "B_s <-> X-Y_s -> A_s"

theorem isoBack_states : eqnFormulas isoBack = .ok
    [[⟨str! "B_s", 1, str! "B", 1, str! "s", str! "B_s"⟩], [⟨str! "X-Y_s", 1, str! "X-Y", 1, str! "s", str! "X-Y_s"⟩],
     [⟨str! "A_s", 1, str! "A", 1, str! "s", str! "A_s"⟩]] := by decide

theorem isoBack_rel (A : Arith) (a b t : ℝ) : ∃ v, rdSingleRelative A (isoEnergies a b t) isoBack = .ok v := by
  unfold rdSingleRelative
  rw [isoBack_states]
  exact ⟨_, rfl⟩

theorem iso_sizes {G : Str → ℝ} (hG : Extends G (isoEnergies 1 (1 / 2) 2)) :
    ∀ rxn ∈ [isoRxn, isoBack], ∀ states, eqnFormulas rxn = .ok states → ∀ fs ∈ states, fs.length ≤ 1 ∧ stateSize G fs ≤ 2 := by
  have a1 : (1 : ℝ) = G (str! "A_s") := (hG (str! "A_s") (1 : ℝ) rfl).symm
  have a2 : (1 / 2 : ℝ) = G (str! "B_s") := (hG (str! "B_s") (1 / 2 : ℝ) rfl).symm
  have a3 : (2 : ℝ) = G (str! "X-Y_s") := (hG (str! "X-Y_s") (2 : ℝ) rfl).symm
  have s1 : stateSize G [⟨str! "A_s", 1, str! "A", 1, str! "s", str! "A_s"⟩] ≤ 2 := by
    unfold stateSize
    rw [List.map_singleton, List.sum_singleton, if_neg (by decide), ← a1]
    norm_num
  have s2 : stateSize G [⟨str! "B_s", 1, str! "B", 1, str! "s", str! "B_s"⟩] ≤ 2 := by
    unfold stateSize
    rw [List.map_singleton, List.sum_singleton, if_neg (by decide), ← a2]
    norm_num
  have s3 : stateSize G [⟨str! "X-Y_s", 1, str! "X-Y", 1, str! "s", str! "X-Y_s"⟩] ≤ 2 := by
    unfold stateSize
    rw [List.map_singleton, List.sum_singleton, if_neg (by decide), ← a3]
    norm_num
  intro rxn hrxn states hst fs hfs
  rcases List.mem_pair.mp hrxn with rfl | rfl
  · rw [isoRxn_states] at hst
    cases hst
    rcases List.mem_cons.mp hfs with rfl | hfs
    · exact ⟨le_refl _, s1⟩
    rcases List.mem_pair.mp hfs with rfl | rfl
    · exact ⟨le_refl _, s3⟩
    · exact ⟨le_refl _, s2⟩
  · rw [isoBack_states] at hst
    cases hst
    rcases List.mem_cons.mp hfs with rfl | hfs
    · exact ⟨le_refl _, s2⟩
    rcases List.mem_pair.mp hfs with rfl | rfl
    · exact ⟨le_refl _, s3⟩
    · exact ⟨le_refl _, s1⟩

/-- `C131_state`, `C131_barriers`, `C131_consistent` in double precision. -/
example : ∃ v w, rdSingleRelative (Arith.digits 53) (isoEnergies 1 (1 / 2) 2) isoRxn = .ok v ∧ singleRelative (isoEnergies 1 (1 / 2) 2) isoRxn = .ok w ∧
    |v.dg - w.dg| ≤ 2 * 2 * ((1 + 1 / 2 ^ 53) ^ 3 - 1) ∧
    |v.gaf - v.gar - v.dg| ≤ 1 / 2 ^ 53 / (1 - 1 / 2 ^ 53) * (|v.gaf| + |v.gar| + |v.dg|) := by
  obtain ⟨G, hG⟩ := exists_extends (isoEnergies 1 (1 / 2) 2)
  obtain ⟨v, hv, -⟩ := iso_rel53
  have h := C131_barriers (Arith.digits 53) _ (digits_rounds 53) _ G hG isoRxn 1 2 (by norm_num) (iso_sizes hG isoRxn (by simp))
  rw [hv] at h
  obtain ⟨w, hw, -, -, h⟩ := relPy_ok_left h
  exact ⟨v, w, hv, hw, h, (C131_consistent (Arith.digits 53) _ (digits_rounds 53) (by norm_num) _ _ v hv).1⟩

/-- `C131_balance` and `C131_absolute` in double precision at 500 K. -/
example : ∃ (v : Rel1 ℝ) (kf kr c : ℝ) (r : Rel ℝ), rdRelative (Arith.digits 53) (isoEnergies 1 (1 / 2) 2) [isoRxn] = .ok r ∧
    rdRatesTST (Arith.digits 53) ⟨[isoRxn], 500, [], 0, 0, false⟩ ⟨some r.gaf, some r.gar, some r.dg⟩ isoRxn = .ok (kf, kr) ∧ 0 < kf ∧ 0 < kr ∧ c < 2 ∧
      v.dg = -(1 / 2) ∧ Within (c / (2 - c) * Real.exp (3 * (1 / 2 ^ 53) / (1 - 1 / 2 ^ 53) * 35)) (kf / kr) (Real.exp (-v.dg / (kBeV * 500))) := by
  obtain ⟨v, hv, g1, g2, g3⟩ := iso_rel53
  have hr : rdRelative (Arith.digits 53) (isoEnergies 1 (1 / 2) 2) [isoRxn] = .ok ⟨[v.gaf], [v.gar], [v.dg]⟩ := by
    unfold rdRelative
    rw [List.mapM_cons, hv]
    rfl
  have hc2 : (1 + 1 / 2 ^ 53 : ℝ) ^ 4 * Real.exp (2 * (1 / 2 ^ 53) / (1 - 1 / 2 ^ 53) * 35) < 2 := by
    set x : ℝ := 2 * (1 / 2 ^ 53) / (1 - 1 / 2 ^ 53) * 35 with hx
    have hx1 : x ≤ 1 / 10 := by rw [hx]; norm_num
    clear_value x
    clear hx hr
    have h1 := Real.add_one_le_exp (-x)
    have h2 : Real.exp (-x) * Real.exp x = 1 := by rw [← Real.exp_add]; simp
    have h3 := Real.exp_pos x
    have h4 : Real.exp x ≤ 10 / 9 := by
      have := mul_le_mul_of_nonneg_right (show 9 / 10 ≤ Real.exp (-x) by linarith) h3.le
      linarith
    have h5 : (1 + 1 / 2 ^ 53 : ℝ) ^ 4 ≤ 3 / 2 := by norm_num
    calc (1 + 1 / 2 ^ 53 : ℝ) ^ 4 * Real.exp x ≤ 3 / 2 * (10 / 9) := mul_le_mul h5 h4 h3.le (by norm_num)
      _ < 2 := by norm_num
  obtain ⟨v', kf, kr, hv', hk, p1, p2, hW⟩ := C131_absolute (Arith.digits 53) _ (digits_rounds 53) (by norm_num) (Arith.digits 53) _ (digits_rounds 53)
    (by norm_num) (isoEnergies 1 (1 / 2) 2) ⟨[isoRxn], 500, [], 0, 0, false⟩ _ (by norm_num) hr 35 _ (by
      intro rxn hx w hw
      rw [List.mem_singleton.mp hx, hv] at hw
      cases hw
      rw [g1, g2, g3]
      unfold kBeV
      norm_num [abs_of_pos]) rfl hc2 isoRxn (by simp)
  rw [hv] at hv'
  cases hv'
  exact ⟨v, kf, kr, _, _, hr, hk, p1, p2, hc2, g3, hW⟩

/-- `C131_data`: a barrier that is repaired and one that is not. -/
example : ∃ r, rdRelFromData (Arith.digits 53) ⟨some [0, 1], some [1 / 2, 1 / 4]⟩ = .ok r ∧ r.gaf = [1 / 2, 1] ∧ r.gar.length = 2 ∧ r.gar[0]? = some 0 := by
  obtain ⟨r', hr', h1, h2, h3, h4⟩ := C131_data (Arith.digits 53) _ (digits_rounds 53) (by norm_num) [0, 1] [1 / 2, 1 / 4] _ rfl
  have hf : fixBarrier (0 : ℝ) (1 / 2) = 1 / 2 := by
    unfold fixBarrier
    rw [if_pos (by norm_num)]
  have hf' : fixBarrier (1 : ℝ) (1 / 4) = 1 := by
    unfold fixBarrier
    rw [if_neg (by norm_num)]
  refine ⟨_, rfl, ?_, rfl, ?_⟩
  · simp only [List.zip_cons_cons, List.zip_nil_right, List.map_cons, List.map_nil, hf, hf']
  · have := (h4 0 (1 / 2) _ (1 / 2) (congrArg some hf) rfl rfl).2 rfl
    exact congrArg some this

/-- `C131_cycles`: there and back again. -/
example : ∃ r, rdRelative (Arith.digits 53) (isoEnergies 1 (1 / 2) 2) [isoRxn, isoBack] = .ok r ∧
    |(([1, 1].zip r.dg).map fun p => p.1 * p.2).sum| ≤ 2 * 2 * ((1 + 1 / 2 ^ 53) ^ (1 + 2) - 1) * (([1, 1] : List ℝ).map fun x => |x|).sum := by
  obtain ⟨G, hG⟩ := exists_extends (isoEnergies 1 (1 / 2) 2)
  obtain ⟨v, hv, -⟩ := iso_rel53
  obtain ⟨w, hw⟩ := isoBack_rel (Arith.digits 53) 1 (1 / 2) 2
  have hr : rdRelative (Arith.digits 53) (isoEnergies 1 (1 / 2) 2) [isoRxn, isoBack] = .ok ⟨[v.gaf, w.gaf], [v.gar, w.gar], [v.dg, w.dg]⟩ := by
    unfold rdRelative
    rw [List.mapM_cons, hv, List.mapM_cons, hw]
    rfl
  refine ⟨_, hr, C131_cycles (Arith.digits 53) _ (digits_rounds 53) _ G hG _ _ [1, 1] 1 2 (by norm_num) (iso_sizes hG) hr rfl fun k => ?_⟩
  simp only [List.zip_cons_cons, List.map_cons, List.sum_cons, netCoef, isoRxn_states, isoBack_states, List.head?_cons,
    List.getLast?_cons_cons, List.getLast?_singleton, List.zip_nil_right, List.map_nil, List.sum_nil]
  ring

end Verif
