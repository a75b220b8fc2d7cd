import Verif.Props.Invariance
import Verif.Props.SteadyLoop
import Mathlib.Analysis.Calculus.Deriv.Slope
import Mathlib.Analysis.Calculus.LineDeriv.Basic
import Mathlib.Analysis.SpecialFunctions.ExpDeriv
/-
Property C90: the values returned by `get_single_XRC` as degrees of rate control.
-/
namespace Verif
open Dict
set_option linter.unusedSectionVars false

section
variable {K : Type} [Field K]

theorem mkEnv_consts (o : MFOwner K) (k k' : List K × List K) (cvgs : List K) (env : Env K)
    (h : mkEnv o k cvgs = .ok env) : mkEnv o k' cvgs = .ok { env with kf := k'.1, kr := k'.2 } := by
  unfold mkEnv at h ⊢
  rw [bind_ok] at h
  obtain ⟨θ, h1, h⟩ := h
  rw [bind_ok] at h
  obtain ⟨d, h2, h⟩ := h
  cases h
  rw [h1, h2]
  rfl

/-- At given coverages the net rates are linear in the rate constants, and the derivatives are
combinations of the net rates. For every network that gives net rates at all. -/
theorem net_linear {o : MFOwner K} (h : parseNetwork o.rxns = .ok o.net) (κf κr : Str → K) (cvgs net : List K)
    (hnet : getNetRates o (o.rxns.map κf, o.rxns.map κr) cvgs = .ok net) :
    ∃ A B : Str → K, ∀ κf' κr' : Str → K,
      getNetRates o (o.rxns.map κf', o.rxns.map κr') cvgs = .ok (o.rxns.map fun t => κf' t * A t - κr' t * B t) ∧
      steadyStateFunction o (o.rxns.map κf', o.rxns.map κr') cvgs = .ok (o.net.ads.map fun a =>
        (o.rxns.map fun t => (codeCoef a (statesOf t) : K) * (κf' t * A t - κr' t * B t)).sum) := by
  unfold getNetRates at hnet
  rw [getRates_text h, bind_ok] at hnet
  obtain ⟨q, hq, -⟩ := hnet
  rw [bind_ok] at hq
  obtain ⟨env, henv, hq⟩ := hq
  rw [bind_ok] at hq
  obtain ⟨rfs, hf, hq⟩ := hq
  rw [bind_ok] at hq
  obtain ⟨rrs, hr, -⟩ := hq
  have each : ∀ (κ : Str → K) (b : Bool) (l : List K), (o.rxns.mapM fun rxn => stateValue env 1 (κ rxn) (endOf b rxn)) = .ok l →
      ∃ A : Str → K, ∀ rxn ∈ o.rxns, ∀ n κ', stateValue env n κ' (endOf b rxn) = .ok ((n : K) * κ' * A rxn) := by
    intro κ b l hl
    have : ∀ rxn ∈ o.rxns, ∃ x, ((endOf b rxn).map factorOf).mapM (evalFactor env) = .ok x := by
      intro rxn hx
      obtain ⟨y, -, hy⟩ := (mapM_ok_mem hl).2 rxn hx
      unfold stateValue at hy
      rw [bind_ok] at hy
      obtain ⟨x, hx, -⟩ := hy
      exact ⟨x, hx⟩
    refine ⟨fun rxn => match ((endOf b rxn).map factorOf).mapM (evalFactor env) with | .ok x => x.prod | .error _ => 0, ?_⟩
    intro rxn hx n κ'
    obtain ⟨x, e⟩ := this rxn hx
    unfold stateValue
    simp only [e]
    rfl
  obtain ⟨A, hA⟩ := each κf true rfs hf
  obtain ⟨B, hB⟩ := each κr false rrs hr
  refine ⟨A, B, fun κf' κr' => ⟨?_, ?_⟩⟩
  · unfold getNetRates
    rw [getRates_text h, mkEnv_consts o _ _ cvgs env henv]
    have e1 : (o.rxns.mapM fun rxn => stateValue { env with kf := o.rxns.map κf', kr := o.rxns.map κr' } 1 (κf' rxn) (endOf true rxn))
        = .ok (o.rxns.map fun t => κf' t * A t) := mapM_ok_map fun t ht => by rw [stateValue_consts, hA t ht]; simp
    have e2 : (o.rxns.mapM fun rxn => stateValue { env with kf := o.rxns.map κf', kr := o.rxns.map κr' } 1 (κr' rxn) (endOf false rxn))
        = .ok (o.rxns.map fun t => κr' t * B t) := mapM_ok_map fun t ht => by rw [stateValue_consts, hB t ht]; simp
    simp only [bind, Except.bind, e1, e2, pure, Except.pure]
    rw [List.zipWith_map_left, List.zipWith_map_right, List.zipWith_self]
  · rw [steady_text h, mkEnv_consts o _ _ cvgs env henv]
    simp only [bind, Except.bind]
    apply mapM_ok_map
    intro a ha
    have hp : o.rxns.mapM (textParts { env with kf := o.rxns.map κf', kr := o.rxns.map κr' } κf' κr' a)
        = .ok (o.rxns.map fun t => match findAds a (statesOf t) with
          | none => []
          | some (0, n) => [(n : K) * κr' t * B t, -((n : K) * κf' t * A t)]
          | some (_ + 1, n) => [(n : K) * κf' t * A t, -((n : K) * κr' t * B t)]) := by
      apply mapM_ok_map
      intro t ht
      rw [textParts_consts]
      unfold textParts
      rcases findAds a (statesOf t) with _ | ⟨_ | m, n⟩
      · rfl
      · simp only [hA t ht, hB t ht]; rfl
      · simp only [hA t ht, hB t ht]; rfl
    rw [hp]
    simp only [Except.map]
    congr 1
    rw [← List.flatMap_def, sum_flatMap]
    congr 1
    apply List.map_congr_left
    intro t _
    unfold codeCoef
    rcases findAds a (statesOf t) with _ | ⟨_ | m, n⟩
    · simp
    · simp; ring
    · simp; ring

/-- Both rate constants of every occurrence of the text `t` multiplied by `q`. -/
def slowed (rxns : List Str) (t : Str) (q : K) (k : List K × List K) : List K × List K :=
  (List.zipWith (fun s x => if s = t then q * x else x) rxns k.1, List.zipWith (fun s x => if s = t then q * x else x) rxns k.2)

theorem slowed_map (rxns : List Str) (t : Str) (q : K) (κf κr : Str → K) :
    slowed rxns t q (rxns.map κf, rxns.map κr)
      = (rxns.map fun s => if s = t then q * κf s else κf s, rxns.map fun s => if s = t then q * κr s else κr s) := by
  unfold slowed
  simp only [List.zipWith_map_right, List.zipWith_self]

/-- A reaction that stands still has no influence: multiplying both of its constants by a number
leaves net rates, derivatives and turnover frequencies at these coverages as they are. -/
theorem C90_equilibrated (o : MFOwner K) (h : parseNetwork o.rxns = .ok o.net) (κf κr : Str → K) (cvgs net : List K)
    (hnet : getNetRates o (o.rxns.map κf, o.rxns.map κr) cvgs = .ok net) (i : Nat) (hi : i < o.rxns.length)
    (hz : net[i]? = some 0) (q : K) :
    let k := (o.rxns.map κf, o.rxns.map κr)
    getNetRates o (slowed o.rxns o.rxns[i] q k) cvgs = .ok net ∧
    steadyStateFunction o (slowed o.rxns o.rxns[i] q k) cvgs = steadyStateFunction o k cvgs ∧
    getTof o (slowed o.rxns o.rxns[i] q k) cvgs = getTof o k cvgs := by
  obtain ⟨A, B, hAB⟩ := net_linear h κf κr cvgs net hnet
  obtain ⟨e1, e2⟩ := hAB κf κr
  have hn : net = o.rxns.map fun t => κf t * A t - κr t * B t := by
    rw [hnet] at e1; exact Except.ok.inj e1
  rw [hn, List.getElem?_map, List.getElem?_eq_getElem hi] at hz
  have hz' : κf o.rxns[i] * A o.rxns[i] - κr o.rxns[i] * B o.rxns[i] = 0 := by simpa using hz
  dsimp only
  rw [slowed_map]
  obtain ⟨f1, f2⟩ := hAB (fun s => if s = o.rxns[i] then q * κf s else κf s) (fun s => if s = o.rxns[i] then q * κr s else κr s)
  have hsame : ∀ t, (if t = o.rxns[i] then q * κf t else κf t) * A t - (if t = o.rxns[i] then q * κr t else κr t) * B t
      = κf t * A t - κr t * B t := by
    intro t
    split
    · rename_i ht
      rw [ht] at *
      rw [mul_assoc, mul_assoc, ← mul_sub, hz', mul_zero]
    · rfl
  simp only [hsame] at f1 f2
  refine ⟨by rw [f1, hn], by rw [f2, e2], ?_⟩
  unfold getTof
  rw [f1, e1]

end

/-- In CO oxidation with equal constants of adsorption and desorption the first reaction stands
still at a quarter coverage of each species. -/
example : getNetRates exMF ([7, 3, 5], [7, 11, 13]) [1 / 4, 1 / 4] = .ok [0, -1 / 2, -3 / 32] ∧
    steadyStateFunction exMF ([7, 3, 5], [7, 11, 13]) [1 / 4, 1 / 4] = .ok [3 / 32, -29 / 32] ∧
    steadyStateFunction exMF (slowed exMF.rxns (str! "CO_g + *_s -> CO_s") 100 ([7, 3, 5], [7, 11, 13])) [1 / 4, 1 / 4]
      = .ok [3 / 32, -29 / 32] := by decide +kernel

/-! ### The constants of perturbed energies -/

/-- Energies in which both barriers of every reaction `i` are raised by `δ i`. -/
def raised (e : List ℝ × List ℝ) (δ : Nat → ℝ) : List ℝ × List ℝ :=
  (e.1.mapIdx fun i x => x + δ i, e.2.mapIdx fun i x => x + δ i)

/-- Raising the barriers multiplies both constants of a reaction by the same factor, so it leaves
its equilibrium constant; a text takes the shift of its first position. -/
theorem C90_constants (ro : RateOwner) (e : List ℝ × List ℝ) (dg : List ℝ) (hT : ro.T ≠ 0) (k : List ℝ × List ℝ)
    (hk : rateConstants ro .TST ⟨some e.1, some e.2, some dg⟩ = .ok k) :
    ∃ κf κr : Str → ℝ, k = (ro.rxns.map κf, ro.rxns.map κr) ∧ ∀ δ : Nat → ℝ,
      rateConstants ro .TST ⟨some (raised e δ).1, some (raised e δ).2, some dg⟩
        = .ok (ro.rxns.map fun t => Real.exp (-(δ (ro.rxns.idxOf t)) / (kBeV * ro.T)) * κf t,
          ro.rxns.map fun t => Real.exp (-(δ (ro.rxns.idxOf t)) / (kBeV * ro.T)) * κr t) := by
  unfold rateConstants at hk
  rw [if_neg (by simp), bind_ok] at hk
  obtain ⟨l, hl, hk⟩ := hk
  obtain ⟨ρ, rfl, hρ⟩ := mapM_values hl
  cases hk
  refine ⟨fun t => (ρ t).1, fun t => (ρ t).2, by simp [Function.comp_def], fun δ => ?_⟩
  have hnew : ro.rxns.mapM (ratesTST ro ⟨some (raised e δ).1, some (raised e δ).2, some dg⟩ false)
      = .ok (ro.rxns.map fun t => (Real.exp (-(δ (ro.rxns.idxOf t)) / (kBeV * ro.T)) * (ρ t).1,
        Real.exp (-(δ (ro.rxns.idxOf t)) / (kBeV * ro.T)) * (ρ t).2)) := by
    apply mapM_ok_map
    intro t ht
    obtain ⟨v, h1, h2, h3⟩ := ratesTST_ok.mp (hρ t ht)
    obtain ⟨g0, gaf, gar, dg', e1, e2, e3, g1, g2, g3⟩ := relOf_ok.mp h1
    cases e1; cases e2; cases e3
    refine ratesTST_ok.mpr ⟨⟨v.gaf + δ (ro.rxns.idxOf t), v.gar + δ (ro.rxns.idxOf t), v.dg⟩,
      relOf_ok.mpr ⟨g0, _, _, _, rfl, rfl, rfl, ?_, ?_, g3⟩, (kTST_ok hT).mpr ?_, (kTST_ok hT).mpr ?_⟩
    · unfold raised; simp [g1]
    · unfold raised; simp [g2]
    · rw [(kTST_ok hT).mp h2]
      dsimp only
      rw [neg_add, add_div, Real.exp_add]
      ring
    · rw [(kTST_ok hT).mp h3]
      dsimp only
      rw [neg_add, add_div, Real.exp_add]
      ring
  unfold rateConstants
  rw [if_neg (by simp)]
  simp only [bind, Except.bind, hnew, pure, Except.pure, List.map_map, Function.comp_def]

theorem shifted_raised {e e' : List ℝ × List ℝ} {i : Nat} {eps : ℝ} (h : Shifted e e' i eps) :
    e' = raised e fun j => if j = i then eps else 0 := by
  obtain ⟨h1, h2, h3, h4⟩ := h
  have each : ∀ l l' : List ℝ, l'.length = l.length → (∀ j x, l[j]? = some x → l'[j]? = some (if j = i then x + eps else x)) →
      l' = l.mapIdx fun j x => x + if j = i then eps else 0 := by
    intro l l' hl hx
    apply List.ext_getElem
    · simp [hl]
    · intro j hj hj'
      have := hx j l[j] (List.getElem?_eq_getElem (by omega))
      rw [List.getElem?_eq_getElem hj] at this
      rw [Option.some.inj this, List.getElem_mapIdx]
      split <;> simp
  exact Prod.ext (each _ _ h1 h3) (each _ _ h2 h4)

/-- The calculation of rate control of a solver that computes its constants by transition state
theory; the search for coverages is any function.
Models: `scaks/solvers/steady_state_solver.py` 1081-1086, 1108-1118. -/
noncomputable def solverXrc (ro : RateOwner) (o : MFOwner ℝ) (dg : List ℝ) (gas : Str)
    (steady : List ℝ × List ℝ → List ℝ → SolveState ℝ → Option (SolveState ℝ × Outcome ℝ)) : XrcEnv ℝ where
  kf e := (rateConstants ro .TST ⟨some e.1, some e.2, some dg⟩).map Prod.fst
  tof e x := do
    let k ← rateConstants ro .TST ⟨some e.1, some e.2, some dg⟩
    getTofOf o k x gas
  steady := steady

/-- What a successful calculation knows of the unperturbed model. -/
theorem solverXrc_start {ro : RateOwner} {o : MFOwner ℝ} {dg : List ℝ} {gas : Str}
    {steady : List ℝ × List ℝ → List ℝ → SolveState ℝ → Option (SolveState ℝ × Outcome ℝ)} (hT : ro.T ≠ 0)
    (hro : ro.rxns = o.rxns) {e : List ℝ × List ℝ} {guess : List ℝ} {r : ℝ} {kfs : List ℝ}
    (h1 : (solverXrc ro o dg gas steady).tof e guess = .ok r) (h2 : (solverXrc ro o dg gas steady).kf e = .ok kfs) :
    ∃ κf κr : Str → ℝ, (∀ t ∈ o.rxns, κf t ≠ 0) ∧
      rateConstants ro .TST ⟨some e.1, some e.2, some dg⟩ = .ok (o.rxns.map κf, o.rxns.map κr) ∧ kfs = o.rxns.map κf ∧
      getTofOf o (o.rxns.map κf, o.rxns.map κr) guess gas = .ok r ∧
      ∀ δ : Nat → ℝ,
        rateConstants ro .TST ⟨some (raised e δ).1, some (raised e δ).2, some dg⟩
          = .ok (o.rxns.map fun t => Real.exp (-(δ (o.rxns.idxOf t)) / (kBeV * ro.T)) * κf t,
            o.rxns.map fun t => Real.exp (-(δ (o.rxns.idxOf t)) / (kBeV * ro.T)) * κr t) := by
  unfold solverXrc at h1 h2
  dsimp only at h1 h2
  rw [bind_ok] at h1
  obtain ⟨k, hk, h1⟩ := h1
  rw [hk] at h2
  cases h2
  obtain ⟨κf, κr, rfl, hδ⟩ := C90_constants ro e dg hT k hk
  rw [hro] at hδ hk h1
  refine ⟨κf, κr, ?_, hk, by rw [hro], h1, hδ⟩
  intro t ht
  unfold rateConstants at hk
  rw [if_neg (by simp), bind_ok] at hk
  obtain ⟨l, hl, hk⟩ := hk
  obtain ⟨ρ, rfl, hρ⟩ := mapM_values hl
  have hk' := congrArg Prod.fst (Except.ok.inj hk)
  rw [hro] at hk' hρ
  simp only [List.map_map] at hk'
  have : κf t = (ρ t).1 := by
    have := List.map_inj_left.mp hk' t ht
    exact this.symm
  obtain ⟨v, -, hv, -⟩ := ratesTST_ok.mp (hρ t ht)
  rw [this, (kTST_ok hT).mp hv]
  have a := kBeV_pos
  have b := heV_pos
  exact mul_ne_zero (div_ne_zero (mul_ne_zero a.ne' hT) b.ne') (Real.exp_ne_zero _)

theorem exp_ne_one {a : ℝ} (h : a ≠ 0) : Real.exp a ≠ 1 := fun h' => h (Real.exp_eq_one_iff a |>.mp h')

/-- The value of each reaction listed for the first time: the response of the turnover frequency
to the factor by which both constants were multiplied. -/
theorem C90_value (ro : RateOwner) (o : MFOwner ℝ) (dg : List ℝ) (gas : Str)
    (steady : List ℝ × List ℝ → List ℝ → SolveState ℝ → Option (SolveState ℝ × Outcome ℝ)) (hT : ro.T ≠ 0)
    (hro : ro.rxns = o.rxns) (eps : ℝ) (heps : eps ≠ 0) (e : List ℝ × List ℝ) (rest heap' : EnergyHeap ℝ)
    (vs : List (XrcValue ℝ)) (st st' : SolveState ℝ)
    (h : getXRC (solverXrc ro o dg gas steady) eps o.rxns.length (e :: rest) st = some (st', .ok (heap', vs))) :
    vs.length = o.rxns.length ∧ ∃ guess r κf κr, st.coverages = some guess ∧
      rateConstants ro .TST ⟨some e.1, some e.2, some dg⟩ = .ok (o.rxns.map κf, o.rxns.map κr) ∧
      getTofOf o (o.rxns.map κf, o.rxns.map κr) guess gas = .ok r ∧
      ∀ i (hi : i < o.rxns.length), (∀ j (hj : j < i), o.rxns[j] ≠ o.rxns[i]) → ∃ s s' x r',
        steady (raised e fun j => if j = i then eps else 0) guess s = some (s', .returned x) ∧
        getTofOf o (slowed o.rxns o.rxns[i] (Real.exp (-eps / (kBeV * ro.T))) (o.rxns.map κf, o.rxns.map κr)) x gas = .ok r' ∧
        rateConstants ro .TST ⟨some (raised e fun j => if j = i then eps else 0).1,
          some (raised e fun j => if j = i then eps else 0).2, some dg⟩
            = .ok (slowed o.rxns o.rxns[i] (Real.exp (-eps / (kBeV * ro.T))) (o.rxns.map κf, o.rxns.map κr)) ∧
        vs[i]? = some (if r = 0 then .inf else .num ((r' - r) / (r * (Real.exp (-eps / (kBeV * ro.T)) - 1)))) := by
  obtain ⟨-, hlen, guess, r, kfs, g1, g2, g3, g4⟩ := C34_values _ eps _ e rest heap' vs st st' h
  obtain ⟨κf, κr, hne, hk, rfl, htof, hδ⟩ := solverXrc_start hT hro g2 g3
  refine ⟨hlen, guess, r, κf, κr, g1, hk, htof, ?_⟩
  intro i hi hfirst
  have hv : i < vs.length := by omega
  obtain ⟨s, s', ⟨e', k, ks', k', x, r', q1, q2, q3, q4, q5, q6, q7⟩⟩ := g4 i _ (List.getElem?_eq_getElem hv)
  have he := shifted_raised q1
  have hidx : o.rxns.idxOf o.rxns[i] = i := by
    have h1 : o.rxns.idxOf o.rxns[i] ≤ i := by
      by_contra hlt
      push Not at hlt
      have := List.not_of_lt_findIdx hlt
      simp at this
    rcases Nat.lt_or_eq_of_le h1 with h2 | h2
    · exact absurd (List.getElem_idxOf (by omega)) (hfirst _ h2)
    · exact h2
  have hconst : rateConstants ro .TST ⟨some (raised e fun j => if j = i then eps else 0).1,
      some (raised e fun j => if j = i then eps else 0).2, some dg⟩
        = .ok (slowed o.rxns o.rxns[i] (Real.exp (-eps / (kBeV * ro.T))) (o.rxns.map κf, o.rxns.map κr)) := by
    rw [hδ, slowed_map]
    have each : ∀ κ : Str → ℝ, (o.rxns.map fun t => Real.exp (-(if o.rxns.idxOf t = i then eps else 0) / (kBeV * ro.T)) * κ t)
        = o.rxns.map fun s => if s = o.rxns[i] then Real.exp (-eps / (kBeV * ro.T)) * κ s else κ s := by
      intro κ
      apply List.map_congr_left
      intro t ht
      by_cases hti : t = o.rxns[i]
      · rw [if_pos hti, if_pos (by rw [hti]; exact hidx)]
      · rw [if_neg hti, if_neg (by
          rintro h2
          have := List.getElem_idxOf (List.idxOf_lt_length_of_mem ht)
          simp only [h2] at this
          exact hti this.symm)]
        simp
    rw [each, each]
  subst he
  refine ⟨s, s', x, r', q5, ?_, hconst, ?_⟩
  · unfold solverXrc at q6
    dsimp only at q6
    rw [hconst] at q6
    exact q6
  · have hk1 : k = κf o.rxns[i] := by
      rw [List.getElem?_map, List.getElem?_eq_getElem hi] at q2
      exact (Option.some.inj q2).symm
    have hk2 : k' = Real.exp (-eps / (kBeV * ro.T)) * κf o.rxns[i] := by
      unfold solverXrc at q3
      dsimp only at q3
      rw [hconst] at q3
      have := Except.ok.inj q3
      rw [slowed_map] at this
      rw [← this, List.getElem?_map, List.getElem?_eq_getElem hi] at q4
      simpa using q4.symm
    have hkn : k ≠ 0 := hk1 ▸ hne _ (List.getElem_mem hi)
    have hq : Real.exp (-eps / (kBeV * ro.T)) - 1 ≠ 0 :=
      sub_ne_zero.mpr (exp_ne_one (div_ne_zero (neg_ne_zero.mpr heps) (mul_ne_zero kBeV_pos.ne' hT)))
    rw [List.getElem?_eq_getElem hv]
    congr 1
    have hkk : k' - k = k * (Real.exp (-eps / (kBeV * ro.T)) - 1) := by rw [hk2, ← hk1]; ring
    rcases q7 with ⟨a, b⟩ | ⟨a, b⟩
    · rcases a with a | a
      · rw [if_pos a]; exact b
      · rw [sub_eq_zero.mpr a] at hkk
        exact absurd hkk.symm (mul_ne_zero hkn hq)
    · push Not at a
      rw [if_neg a.1, b, hkk]
      congr 1
      field_simp

/-- The calculation succeeds whenever the unperturbed model has rates at the solver's coverages and
the search returns these coverages. -/
theorem C90_defined (ro : RateOwner) (o : MFOwner ℝ) (dg : List ℝ) (gas : Str)
    (steady : List ℝ × List ℝ → List ℝ → SolveState ℝ → Option (SolveState ℝ × Outcome ℝ)) (hT : ro.T ≠ 0)
    (hro : ro.rxns = o.rxns) (hp : parseNetwork o.rxns = .ok o.net) (hgas : gas ∈ o.net.gas) (eps : ℝ)
    (e : List ℝ × List ℝ) (hl1 : e.1.length = o.rxns.length) (hl2 : e.2.length = o.rxns.length) (st : SolveState ℝ)
    (guess net : List ℝ) (k : List ℝ × List ℝ) (hg : st.coverages = some guess)
    (hk : rateConstants ro .TST ⟨some e.1, some e.2, some dg⟩ = .ok k) (hnet : getNetRates o k guess = .ok net)
    (hs : ∀ e' s, ∃ s', steady e' guess s = some (s', .returned guess)) :
    ∃ st' heap' vs, getXRC (solverXrc ro o dg gas steady) eps o.rxns.length [e] st = some (st', .ok (heap', vs)) := by
  obtain ⟨κf, κr, rfl, hδ⟩ := C90_constants ro e dg hT k hk
  rw [hro] at hnet hk hδ
  obtain ⟨A, B, hAB⟩ := net_linear hp κf κr guess net hnet
  have htof : ∀ κf' κr' : Str → ℝ, ∃ t, getTofOf o (o.rxns.map κf', o.rxns.map κr') guess gas = .ok t := fun κf' κr' =>
    ⟨_, (C69_turnover o _ guess _ hp (hAB κf' κr').1 (by simp)).2.1 gas hgas⟩
  have one : ∀ r i rest s, i < o.rxns.length → ∃ s' rest' v,
      xrcOne (solverXrc ro o dg gas steady) eps guess r (o.rxns.map κf) i (e :: rest) s = some (s', .ok (e :: rest', v)) := by
    intro r i rest s hi
    have hsh : ∃ e', perturb (e :: rest) i eps = .ok (e :: rest ++ [e'], e') := by
      obtain ⟨a, b⟩ := e
      unfold perturb
      dsimp only at hl1 hl2 ⊢
      rw [if_pos ⟨by omega, by omega⟩]
      exact ⟨_, rfl⟩
    obtain ⟨e', hsh⟩ := hsh
    obtain ⟨_, _, h1, -, h2⟩ := perturb_ok hsh
    cases h1
    have he := shifted_raised h2
    obtain ⟨s', hs'⟩ := hs e' s
    obtain ⟨t, ht⟩ := htof (fun t => Real.exp (-(if o.rxns.idxOf t = i then eps else 0) / (kBeV * ro.T)) * κf t)
      (fun t => Real.exp (-(if o.rxns.idxOf t = i then eps else 0) / (kBeV * ro.T)) * κr t)
    have hc := hδ fun j => if j = i then eps else 0
    rw [← he] at hc
    unfold xrcOne
    rw [hsh]
    dsimp only [solverXrc]
    rw [hc, List.getElem?_map, List.getElem?_eq_getElem hi]
    dsimp only [Option.map_some, Except.map]
    rw [List.getElem?_map, List.getElem?_eq_getElem hi]
    dsimp only [Option.map_some]
    rw [hs']
    dsimp only [bind, Except.bind]
    rw [ht]
    exact ⟨_, _, _, rfl⟩
  have loop : ∀ r is, (∀ i ∈ is, i < o.rxns.length) → ∀ rest s, ∃ s' rest' vs,
      xrcLoop (solverXrc ro o dg gas steady) eps guess r (o.rxns.map κf) is (e :: rest) s = some (s', .ok (e :: rest', vs)) := by
    intro r is
    induction is with
    | nil => exact fun _ rest s => ⟨s, rest, [], rfl⟩
    | cons i is ih =>
      intro hi rest s
      obtain ⟨s1, rest1, v, h1⟩ := one r i rest s (hi i (by simp))
      obtain ⟨s2, rest2, vs, h2⟩ := ih (fun j hj => hi j (by simp [hj])) rest1 s1
      rw [xrcLoop, h1]
      dsimp only
      rw [h2]
      exact ⟨_, _, _, rfl⟩
  obtain ⟨r, hr⟩ := htof κf κr
  obtain ⟨s', rest', vs, h⟩ := loop r (List.range o.rxns.length) (by simp) [] st
  refine ⟨s', e :: rest', vs, ?_⟩
  unfold getXRC
  rw [hg]
  dsimp only [solverXrc]
  rw [hk]
  dsimp only [bind, Except.bind, Except.map]
  rw [hr]
  exact h

/-- A reaction that stands still at the solver's coverages has degree zero, whenever the search
started there finds them again (they are still stationary, `C90_equilibrated`). -/
theorem C90_no_control (ro : RateOwner) (o : MFOwner ℝ) (dg : List ℝ) (gas : Str)
    (steady : List ℝ × List ℝ → List ℝ → SolveState ℝ → Option (SolveState ℝ × Outcome ℝ)) (hT : ro.T ≠ 0)
    (hro : ro.rxns = o.rxns) (hp : parseNetwork o.rxns = .ok o.net) (hnd : o.rxns.Nodup) (eps : ℝ) (heps : eps ≠ 0)
    (e : List ℝ × List ℝ) (rest heap' : EnergyHeap ℝ) (vs : List (XrcValue ℝ)) (st st' : SolveState ℝ)
    (h : getXRC (solverXrc ro o dg gas steady) eps o.rxns.length (e :: rest) st = some (st', .ok (heap', vs)))
    (guess net : List ℝ) (k : List ℝ × List ℝ) (r : ℝ) (hg : st.coverages = some guess)
    (hk : rateConstants ro .TST ⟨some e.1, some e.2, some dg⟩ = .ok k) (hnet : getNetRates o k guess = .ok net)
    (hr : getTofOf o k guess gas = .ok r) (hr0 : r ≠ 0) (i : Nat) (hi : i < o.rxns.length) (hz : net[i]? = some 0)
    (hfind : ∀ s s' x, steady (raised e fun j => if j = i then eps else 0) guess s = some (s', .returned x) → x = guess) :
    vs[i]? = some (.num 0) := by
  obtain ⟨-, guess', r1, κf, κr, h1, h2, h3, h4⟩ := C90_value ro o dg gas steady hT hro eps heps e rest heap' vs st st' h
  rw [hg] at h1; cases h1
  rw [hk] at h2; cases h2
  rw [hr] at h3; cases h3
  obtain ⟨s, s', x, r', q1, q2, -, q3⟩ := h4 i hi (fun j hj hji => by
    have := (List.Nodup.getElem_inj_iff hnd).mp hji; omega)
  rw [hfind _ _ _ q1] at q2
  obtain ⟨-, -, t3⟩ := C90_equilibrated o hp κf κr guess net hnet i hi hz (Real.exp (-eps / (kBeV * ro.T)))
  unfold getTofOf at q2 hr
  rw [t3, hr] at q2
  cases q2
  rw [q3, if_neg hr0]
  simp

/-- The only reaction of a model has degree one, whenever the search finds the same coverages. -/
theorem C90_only_reaction (ro : RateOwner) (o : MFOwner ℝ) (dg : List ℝ) (gas : Str)
    (steady : List ℝ × List ℝ → List ℝ → SolveState ℝ → Option (SolveState ℝ × Outcome ℝ)) (hT : ro.T ≠ 0)
    (hro : ro.rxns = o.rxns) (hone : o.rxns.length = 1) (eps : ℝ) (heps : eps ≠ 0)
    (e : List ℝ × List ℝ) (rest heap' : EnergyHeap ℝ) (vs : List (XrcValue ℝ)) (st st' : SolveState ℝ)
    (h : getXRC (solverXrc ro o dg gas steady) eps 1 (e :: rest) st = some (st', .ok (heap', vs)))
    (guess : List ℝ) (k : List ℝ × List ℝ) (r : ℝ) (hg : st.coverages = some guess)
    (hk : rateConstants ro .TST ⟨some e.1, some e.2, some dg⟩ = .ok k) (hr : getTofOf o k guess gas = .ok r) (hr0 : r ≠ 0)
    (hfind : ∀ e s s' x, steady e guess s = some (s', .returned x) → x = guess) :
    vs = [.num 1] := by
  rw [← hone] at h
  obtain ⟨hl, guess', r1, κf, κr, h1, h2, h3, h4⟩ := C90_value ro o dg gas steady hT hro eps heps e rest heap' vs st st' h
  rw [hg] at h1; cases h1
  rw [hk] at h2; cases h2
  rw [hr] at h3; cases h3
  obtain ⟨s, s', x, r', q1, q2, -, q3⟩ := h4 0 (by omega) (fun j hj => by omega)
  rw [hfind _ _ _ _ q1] at q2
  have hsl : slowed o.rxns o.rxns[0] (Real.exp (-eps / (kBeV * ro.T))) (o.rxns.map κf, o.rxns.map κr)
      = scaleK (Real.exp (-eps / (kBeV * ro.T))) (o.rxns.map κf, o.rxns.map κr) := by
    rw [slowed_map]
    unfold scaleK
    simp only [List.map_map]
    have each : ∀ t ∈ o.rxns, t = o.rxns[0] := by
      intro t ht
      obtain ⟨j, hj, rfl⟩ := List.mem_iff_getElem.mp ht
      congr 1; omega
    congr 1
    · exact List.map_congr_left fun t ht => by rw [if_pos (each t ht)]; rfl
    · exact List.map_congr_left fun t ht => by rw [if_pos (each t ht)]; rfl
  have hr' : r' = Real.exp (-eps / (kBeV * ro.T)) * r := by
    rw [hsl] at q2
    unfold getTofOf at q2 hr
    rw [C89_turnover] at q2
    rw [bind_ok] at hr
    obtain ⟨l, hl, hr⟩ := hr
    rw [hl] at q2
    simp only [Except.map, bind, Except.bind] at q2
    split at hr
    · cases hr
    · rename_i hm
      rw [if_neg hm] at q2
      rw [List.getElem?_map] at q2
      cases hx : l[o.net.gas.idxOf gas]? with
      | none => rw [hx] at hr; cases hr
      | some y =>
        rw [hx] at q2 hr
        cases hr
        exact (Except.ok.inj q2).symm
  have hq : Real.exp (-eps / (kBeV * ro.T)) - 1 ≠ 0 :=
    sub_ne_zero.mpr (exp_ne_one (div_ne_zero (neg_ne_zero.mpr heps) (mul_ne_zero kBeV_pos.ne' hT)))
  rw [if_neg hr0, hr'] at q3
  apply List.ext_getElem?
  intro j
  match j with
  | 0 =>
    rw [q3]
    simp only [List.getElem?_cons_zero]
    congr 2
    rw [div_eq_one_iff_eq (mul_ne_zero hr0 hq)]
    ring
  | j + 1 => rw [List.getElem?_eq_none (by omega)]; simp

/-- A reaction listed a second time gets no value: the shift of its barriers is not read, so its
rate constant does not change, and the result is `inf`. -/
theorem C90_repeated_refuted (ro : RateOwner) (o : MFOwner ℝ) (dg : List ℝ) (gas : Str)
    (steady : List ℝ × List ℝ → List ℝ → SolveState ℝ → Option (SolveState ℝ × Outcome ℝ)) (hT : ro.T ≠ 0)
    (hro : ro.rxns = o.rxns) (eps : ℝ) (e : List ℝ × List ℝ) (rest heap' : EnergyHeap ℝ)
    (vs : List (XrcValue ℝ)) (st st' : SolveState ℝ)
    (h : getXRC (solverXrc ro o dg gas steady) eps o.rxns.length (e :: rest) st = some (st', .ok (heap', vs)))
    (i j : Nat) (hi : i < o.rxns.length) (hj : j < i) (hij : o.rxns[j] = o.rxns[i]) : vs[i]? = some .inf := by
  obtain ⟨-, hlen, guess, r, kfs, g1, g2, g3, g4⟩ := C34_values _ eps _ e rest heap' vs st st' h
  obtain ⟨κf, κr, hne, hk, rfl, htof, hδ⟩ := solverXrc_start hT hro g2 g3
  have hv : i < vs.length := by omega
  obtain ⟨s, s', ⟨e', k, ks', k', x, r', q1, q2, q3, q4, q5, q6, q7⟩⟩ := g4 i _ (List.getElem?_eq_getElem hv)
  have he := shifted_raised q1
  subst he
  have hidx : o.rxns.idxOf o.rxns[i] ≠ i := by
    intro h1
    have h2 : o.rxns.idxOf o.rxns[i] ≤ j := by
      by_contra hlt
      push Not at hlt
      have := List.not_of_lt_findIdx hlt
      simp [hij] at this
    omega
  unfold solverXrc at q3
  dsimp only at q3
  rw [hδ] at q3
  have := Except.ok.inj q3
  dsimp only at this
  rw [← this, List.getElem?_map, List.getElem?_eq_getElem hi] at q4
  simp only [Option.map_some, if_neg hidx, neg_zero, zero_div, Real.exp_zero, one_mul, Option.some.injEq] at q4
  rw [List.getElem?_map, List.getElem?_eq_getElem hi] at q2
  have hkk : k' = k := by rw [← q4]; exact Option.some.inj q2
  rw [List.getElem?_eq_getElem hv]
  rcases q7 with ⟨-, b⟩ | ⟨a, -⟩
  · rw [b]
  · exact absurd (Or.inr hkk) a

/-! ### The sum of all degrees -/

/-- The number in a value; `inf` counts as zero (and is excluded below). -/
def XrcValue.number : XrcValue ℝ → ℝ
  | .num x => x
  | .inf => 0

/-- Raised barriers given by a vector. -/
def raisedBy (e : List ℝ × List ℝ) {n : Nat} (δ : Fin n → ℝ) : List ℝ × List ℝ :=
  raised e fun i => if h : i < n then δ ⟨i, h⟩ else 0

theorem raised_congr (e : List ℝ × List ℝ) (n : Nat) (hn : e.1.length ≤ n) (hn2 : e.2.length ≤ n) (δ δ' : Nat → ℝ)
    (h : ∀ i < n, δ i = δ' i) : raised e δ = raised e δ' := by
  unfold raised
  refine Prod.ext ?_ ?_
  · dsimp only
    apply List.ext_getElem (by simp)
    intro i h1 h2
    simp only [List.length_mapIdx] at h1
    rw [List.getElem_mapIdx, List.getElem_mapIdx, h i (by omega)]
  · dsimp only
    apply List.ext_getElem (by simp)
    intro i h1 h2
    simp only [List.length_mapIdx] at h1
    rw [List.getElem_mapIdx, List.getElem_mapIdx, h i (by omega)]

theorem getTofOf_scale (o : MFOwner ℝ) (c : ℝ) (k : List ℝ × List ℝ) (x : List ℝ) (gas : Str) :
    getTofOf o (scaleK c k) x gas = (getTofOf o k x gas).map (c * ·) := by
  unfold getTofOf
  rw [C89_turnover]
  cases getTof o k x with
  | error e => rfl
  | ok l =>
    simp only [Except.map, bind, Except.bind]
    split
    · rfl
    · rw [List.getElem?_map]
      cases l[o.net.gas.idxOf gas]? <;> rfl

open Filter Topology in
/-- The degrees of rate control of all reactions add up to one in the limit of small steps.
`found e'` is what the search returns for energies `e'`, `F δ` the turnover frequency found with
the barriers raised by `δ`. It is assumed that `F` is smooth at zero, that the turnover frequency
is not zero, and that raising all barriers equally finds the same coverages again (these are still
stationary: all constants change by the same factor, C89). Missing: collision theory; models in
which a reaction is listed twice (`C90_repeated_refuted`). -/
theorem C90_sum_partial (ro : RateOwner) (o : MFOwner ℝ) (dg : List ℝ) (gas : Str)
    (steady : List ℝ × List ℝ → List ℝ → SolveState ℝ → Option (SolveState ℝ × Outcome ℝ)) (hT : ro.T ≠ 0)
    (hro : ro.rxns = o.rxns) (hnd : o.rxns.Nodup) (e : List ℝ × List ℝ)
    (hl1 : e.1.length = o.rxns.length) (hl2 : e.2.length = o.rxns.length) (rest : EnergyHeap ℝ)
    (st : SolveState ℝ) (guess : List ℝ) (hg : st.coverages = some guess) (found : List ℝ × List ℝ → List ℝ)
    (hfound : ∀ e' s s' x, steady e' guess s = some (s', .returned x) → x = found e')
    (F : (Fin o.rxns.length → ℝ) → ℝ)
    (hF : ∀ᶠ δ in 𝓝 0, (solverXrc ro o dg gas steady).tof (raisedBy e δ) (found (raisedBy e δ)) = .ok (F δ))
    (hd : DifferentiableAt ℝ F 0) (hr0 : F 0 ≠ 0)
    (hsame : ∀ᶠ c in 𝓝 0, found (raisedBy (n := o.rxns.length) e fun _ => c) = guess)
    (vs : ℝ → List (XrcValue ℝ))
    (h : ∀ᶠ eps in 𝓝[≠] 0, ∃ st' heap', getXRC (solverXrc ro o dg gas steady) eps o.rxns.length (e :: rest) st
      = some (st', .ok (heap', vs eps))) :
    (∀ᶠ eps in 𝓝[≠] 0, XrcValue.inf ∉ vs eps) ∧
      Tendsto (fun eps => ((vs eps).map XrcValue.number).sum) (𝓝[≠] 0) (𝓝 1) := by
  have hkT : kBeV * ro.T ≠ 0 := mul_ne_zero kBeV_pos.ne' hT
  have hzero : raisedBy e (0 : Fin o.rxns.length → ℝ) = e := by
    unfold raisedBy raised
    simp [List.mapIdx_eq_zipIdx_map]
  have hg0 : found e = guess := by
    have := hsame.self_of_nhds
    rwa [show (fun _ => 0 : Fin o.rxns.length → ℝ) = 0 from rfl, hzero] at this
  have hF0 : (solverXrc ro o dg gas steady).tof e guess = .ok (F 0) := by
    have := hF.self_of_nhds
    rwa [hzero, hg0] at this
  have hkf : ∃ kfs, (solverXrc ro o dg gas steady).kf e = .ok kfs := by
    have h1 := hF0
    unfold solverXrc at h1 ⊢
    dsimp only at h1 ⊢
    rw [bind_ok] at h1
    obtain ⟨k, hk, -⟩ := h1
    rw [hk]
    exact ⟨_, rfl⟩
  obtain ⟨kfs, hkf⟩ := hkf
  obtain ⟨κf, κr, -, hk, -, htof, hδ⟩ := solverXrc_start hT hro hF0 hkf
  -- all barriers raised equally
  have huni : ∀ᶠ c in 𝓝 (0 : ℝ), F (fun _ => c) = Real.exp (-c / (kBeV * ro.T)) * F 0 := by
    have hc : Tendsto (fun c : ℝ => (fun _ => c : Fin o.rxns.length → ℝ)) (𝓝 0) (𝓝 0) :=
      (continuous_pi fun _ => continuous_id).tendsto' _ _ rfl
    filter_upwards [hsame, hc.eventually hF] with c h1 h2
    rw [h1] at h2
    unfold solverXrc raisedBy at h2
    dsimp only at h2
    rw [hδ] at h2
    have hs : ∀ κ : Str → ℝ, (o.rxns.map fun t => Real.exp (-(if h : o.rxns.idxOf t < o.rxns.length then c else 0) / (kBeV * ro.T)) * κ t)
        = (o.rxns.map κ).map (Real.exp (-c / (kBeV * ro.T)) * ·) := by
      intro κ
      rw [List.map_map]
      apply List.map_congr_left
      intro t ht
      rw [dif_pos (List.idxOf_lt_length_of_mem ht)]
      rfl
    rw [hs, hs] at h2
    have h3 : getTofOf o (scaleK (Real.exp (-c / (kBeV * ro.T))) (o.rxns.map κf, o.rxns.map κr)) guess gas = .ok (F fun _ => c) := h2
    rw [getTofOf_scale, htof] at h3
    exact (Except.ok.inj h3).symm
  -- the values
  have hvals : ∀ᶠ eps in 𝓝[≠] (0 : ℝ), vs eps = List.ofFn fun i : Fin o.rxns.length =>
      XrcValue.num ((F (Pi.single i eps) - F 0) / (F 0 * (Real.exp (-eps / (kBeV * ro.T)) - 1))) := by
    have hsin : ∀ᶠ eps in 𝓝 (0 : ℝ), ∀ i : Fin o.rxns.length, (solverXrc ro o dg gas steady).tof (raisedBy e (Pi.single i eps))
        (found (raisedBy e (Pi.single i eps))) = .ok (F (Pi.single i eps)) := by
      rw [eventually_all]
      intro i
      have hc : Tendsto (fun c : ℝ => (Pi.single i c : Fin o.rxns.length → ℝ)) (𝓝 0) (𝓝 0) :=
        (continuous_single i).tendsto' _ _ (Pi.single_zero i)
      exact hc.eventually hF
    filter_upwards [h, mem_nhdsWithin_of_mem_nhds hsin, self_mem_nhdsWithin] with eps h1 h2 hne
    obtain ⟨st', heap', h1⟩ := h1
    obtain ⟨hlen, guess', r, κf', κr', a1, a2, a3, a4⟩ := C90_value ro o dg gas steady hT hro eps hne e rest heap' _ st st' h1
    rw [hg] at a1; cases a1
    rw [hk] at a2
    obtain ⟨b1, b2⟩ := Prod.mk.inj (Except.ok.inj a2)
    rw [← b1, ← b2] at a3 a4
    rw [htof] at a3; cases a3
    apply List.ext_getElem?
    intro i
    by_cases hi : i < o.rxns.length
    · obtain ⟨s, s', x, r', c1, c2, c3, c4⟩ := a4 i hi (fun j hj hji => by
        have := (List.Nodup.getElem_inj_iff hnd).mp hji; omega)
      have hr : (raised e fun j => if j = i then eps else 0) = raisedBy e (Pi.single (⟨i, hi⟩ : Fin o.rxns.length) eps) := by
        unfold raisedBy
        apply raised_congr e o.rxns.length (by omega) (by omega)
        intro j hj
        rw [dif_pos hj]
        by_cases hji : j = i
        · subst hji; simp
        · rw [if_neg hji, Pi.single_eq_of_ne (by simpa [Fin.ext_iff] using hji)]
      have hx := hfound _ _ _ _ c1
      have h3 := h2 ⟨i, hi⟩
      rw [← hr, ← hx] at h3
      unfold solverXrc at h3
      dsimp only at h3
      rw [c3] at h3
      have h4 : getTofOf o (slowed o.rxns o.rxns[i] (Real.exp (-eps / (kBeV * ro.T))) (o.rxns.map κf, o.rxns.map κr)) x gas
        = .ok (F (Pi.single ⟨i, hi⟩ eps)) := h3
      rw [c2] at h4
      cases h4
      rw [c4, if_neg hr0, List.getElem?_ofFn, dif_pos hi]
    · rw [List.getElem?_eq_none (by omega), List.getElem?_eq_none (by simpa using hi)]
  refine ⟨?_, ?_⟩
  · filter_upwards [hvals] with eps h1
    rw [h1]
    simp [List.mem_ofFn]
  · have hsum : ∀ᶠ eps in 𝓝[≠] (0 : ℝ), ∑ i : Fin o.rxns.length,
        (eps⁻¹ * (F (Pi.single i eps) - F 0)) * ((F 0)⁻¹ * (eps⁻¹ * (Real.exp (-eps / (kBeV * ro.T)) - 1))⁻¹)
          = ((vs eps).map XrcValue.number).sum := by
      filter_upwards [hvals, self_mem_nhdsWithin] with eps h1 hne
      rw [h1, List.map_ofFn, List.sum_ofFn]
      apply Finset.sum_congr rfl
      intro i _
      have hne' : eps ≠ 0 := hne
      simp only [Function.comp_def, XrcValue.number]
      have hq : Real.exp (-eps / (kBeV * ro.T)) - 1 ≠ 0 :=
        sub_ne_zero.mpr (exp_ne_one (div_ne_zero (neg_ne_zero.mpr hne') hkT))
      field_simp
    refine Tendsto.congr' hsum ?_
    have hline : ∀ v : Fin o.rxns.length → ℝ, HasDerivAt (fun t : ℝ => F (0 + t • v)) (fderiv ℝ F 0 v) 0 :=
      fun v => hd.hasFDerivAt.hasLineDerivAt v
    have hone : ∀ i : Fin o.rxns.length, Tendsto (fun eps : ℝ => eps⁻¹ * (F (Pi.single i eps) - F 0)) (𝓝[≠] 0)
        (𝓝 (fderiv ℝ F 0 (Pi.single i 1))) := by
      intro i
      have := hasDerivAt_iff_tendsto_slope_zero.mp (hline (Pi.single i 1))
      refine this.congr fun t => ?_
      have : (t • Pi.single i 1 : Fin o.rxns.length → ℝ) = Pi.single i t := by
        rw [← Pi.single_smul]; simp
      simp [this]
    have hexp : Tendsto (fun eps : ℝ => eps⁻¹ * (Real.exp (-eps / (kBeV * ro.T)) - 1)) (𝓝[≠] 0) (𝓝 (-1 / (kBeV * ro.T))) := by
      have h1 : HasDerivAt (fun t : ℝ => Real.exp (-t / (kBeV * ro.T))) (-1 / (kBeV * ro.T)) 0 := by
        have := ((hasDerivAt_id (0 : ℝ)).neg.div_const (kBeV * ro.T)).exp
        simpa using this
      have := hasDerivAt_iff_tendsto_slope_zero.mp h1
      refine this.congr fun t => ?_
      simp
    have hall : fderiv ℝ F 0 (fun _ => 1) = -1 / (kBeV * ro.T) * F 0 := by
      have h1 := hline fun _ => 1
      have h2 : HasDerivAt (fun t : ℝ => Real.exp (-t / (kBeV * ro.T)) * F 0) (-1 / (kBeV * ro.T) * F 0) 0 := by
        have := (((hasDerivAt_id (0 : ℝ)).neg.div_const (kBeV * ro.T)).exp).mul_const (F 0)
        simpa using this
      have h3 : (fun t : ℝ => F (0 + t • fun _ => 1)) =ᶠ[𝓝 0] fun t : ℝ => Real.exp (-t / (kBeV * ro.T)) * F 0 := by
        filter_upwards [huni] with t ht
        rw [← ht]
        congr 1
        funext j
        simp
      exact (h1.congr_of_eventuallyEq h3.symm).unique h2
    have hadd : ∑ i : Fin o.rxns.length, fderiv ℝ F 0 (Pi.single i 1) = -1 / (kBeV * ro.T) * F 0 := by
      rw [← hall, ← map_sum]
      congr 1
      funext j
      simp [Finset.sum_apply, Pi.single_apply]
    have hlim := tendsto_finsetSum (Finset.univ : Finset (Fin o.rxns.length)) fun i _ =>
      (hone i).mul ((tendsto_const_nhds (x := (F 0)⁻¹)).mul (hexp.inv₀ (div_ne_zero (by norm_num) hkT)))
    rw [← Finset.sum_mul, hadd] at hlim
    have : -1 / (kBeV * ro.T) * F 0 * ((F 0)⁻¹ * (-1 / (kBeV * ro.T))⁻¹) = 1 := by
      have a := kBeV_pos.ne'
      field_simp
    rwa [this] at hlim

/-! ### An isomerisation over one intermediate -/

def exHcn : List Str := [str! "HCN_g + *_s -> HCN_s", str! "HCN_s -> CNH_g + *_s"]
noncomputable def exHcnMF : MFOwner ℝ := ⟨exHcn, netOf exHcn, [(str! "*_s", 1)], [(str! "HCN_g", 1), (str! "CNH_g", 0)], []⟩
noncomputable def exHcnRo : RateOwner := ⟨exHcn, 450, [], 0, 0, false⟩
/-- The stationary coverage for given barriers. -/
noncomputable def exHcnFound : List ℝ × List ℝ → List ℝ
  | ([x, y], [z, _]) => [Real.exp (-x / (kBeV * 450)) /
      (Real.exp (-x / (kBeV * 450)) + Real.exp (-z / (kBeV * 450)) + Real.exp (-y / (kBeV * 450)))]
  | _ => []
noncomputable def exHcnSteady (e : List ℝ × List ℝ) (_ : List ℝ) (s : SolveState ℝ) : Option (SolveState ℝ × Outcome ℝ) :=
  some ({ s with coverages := some (exHcnFound e) }, .returned (exHcnFound e))
noncomputable def exHcnXrc : XrcEnv ℝ := solverXrc exHcnRo exHcnMF [0, 0] (str! "CNH_g") exHcnSteady
noncomputable def exHcnF (δ : Fin 2 → ℝ) : ℝ :=
  kBeV * 450 / heV * (Real.exp (-δ 0 / (kBeV * 450)) * Real.exp (-δ 1 / (kBeV * 450))) /
    (Real.exp (-δ 0 / (kBeV * 450)) + Real.exp (-δ 0 / (kBeV * 450)) + Real.exp (-δ 1 / (kBeV * 450)))

theorem exHcn_ready : Ready exHcnMF (fun _ => 1) (fun g => if g = str! "HCN_g" then 1 else 0) (fun _ => 0) := by
  have e1 : exHcnMF.net.sites = [str! "*_s"] := by decide
  have e2 : exHcnMF.net.gas = [str! "CNH_g", str! "HCN_g"] := by decide
  have e3 : exHcnMF.net.liq = [] := by decide
  refine ⟨by decide, ?_, ?_, ?_⟩
  · rw [e1]; simp only [List.mem_singleton, forall_eq]; rfl
  · rw [e2]; simp only [List.mem_cons, List.not_mem_nil, or_false, forall_eq_or_imp, forall_eq]
    exact ⟨by rw [if_neg (by decide)]; rfl, by simp only [if_true]; rfl⟩
  · rw [e3]; simp

theorem exHcn_constants (x y z w : ℝ) : rateConstants exHcnRo .TST ⟨some [x, y], some [z, w], some [0, 0]⟩ =
    .ok ([kBeV * 450 / heV * Real.exp (-x / (kBeV * 450)), kBeV * 450 / heV * Real.exp (-y / (kBeV * 450))],
      [kBeV * 450 / heV * Real.exp (-z / (kBeV * 450)), kBeV * 450 / heV * Real.exp (-w / (kBeV * 450))]) := by
  have h1 : ratesTST exHcnRo ⟨some [x, y], some [z, w], some [0, 0]⟩ false (str! "HCN_g + *_s -> HCN_s")
      = .ok (kBeV * 450 / heV * Real.exp (-x / (kBeV * 450)), kBeV * 450 / heV * Real.exp (-z / (kBeV * 450))) :=
    ratesTST_ok.mpr ⟨⟨x, z, 0⟩, relOf_ok.mpr ⟨by decide, _, _, _, rfl, rfl, rfl, rfl, rfl, rfl⟩,
      (kTST_ok (by norm_num [exHcnRo])).mpr rfl, (kTST_ok (by norm_num [exHcnRo])).mpr rfl⟩
  have h2 : ratesTST exHcnRo ⟨some [x, y], some [z, w], some [0, 0]⟩ false (str! "HCN_s -> CNH_g + *_s")
      = .ok (kBeV * 450 / heV * Real.exp (-y / (kBeV * 450)), kBeV * 450 / heV * Real.exp (-w / (kBeV * 450))) :=
    ratesTST_ok.mpr ⟨⟨y, w, 0⟩, relOf_ok.mpr ⟨by decide, _, _, _, rfl, rfl, rfl, rfl, rfl, rfl⟩,
      (kTST_ok (by norm_num [exHcnRo])).mpr rfl, (kTST_ok (by norm_num [exHcnRo])).mpr rfl⟩
  unfold rateConstants
  rw [if_neg (by simp)]
  simp only [show exHcnRo.rxns = [str! "HCN_g + *_s -> HCN_s", str! "HCN_s -> CNH_g + *_s"] from rfl,
    List.mapM_cons, List.mapM_nil, h1, h2, bind, Except.bind, pure, Except.pure, List.map_cons, List.map_nil]

theorem exHcn_tof (x y z w θ : ℝ) : exHcnXrc.tof ([x, y], [z, w]) [θ]
    = .ok (kBeV * 450 / heV * Real.exp (-y / (kBeV * 450)) * θ) := by
  obtain ⟨κf, hf⟩ := kOk_nodup (rxns := exHcnMF.rxns)
    (k := [kBeV * 450 / heV * Real.exp (-x / (kBeV * 450)), kBeV * 450 / heV * Real.exp (-y / (kBeV * 450))]) (by decide) rfl
  obtain ⟨κr, hr⟩ := kOk_nodup (rxns := exHcnMF.rxns)
    (k := [kBeV * 450 / heV * Real.exp (-z / (kBeV * 450)), kBeV * 450 / heV * Real.exp (-w / (kBeV * 450))]) (by decide) rfl
  have hads : exHcnMF.net.ads = [str! "HCN_s"] := by decide
  obtain ⟨rfs, rrs, h1, h2, h3, h4⟩ := getRates_ok exHcn_ready
    (fun st hst => rateClean_of ((by decide : ∀ st ∈ (netOf exHcn).rxns, rateCleanB st = true) st hst))
    (fun _ => θ) _ _ κf κr hf hr
  have hcov : coverage exHcnMF.net (fun _ => (1 : ℝ)) (fun _ => θ) (str! "HCN_s") = θ := by
    unfold coverage; rw [if_pos (by decide)]
  have hsite : coverage exHcnMF.net (fun _ => (1 : ℝ)) (fun _ => θ) (str! "*_s") = 1 - θ := by
    unfold coverage
    rw [if_neg (by decide), hads, show [str! "HCN_s"].filter (fun a => decide (OnSite a (str! "*_s"))) = [str! "HCN_s"] by decide]
    simp
  obtain ⟨a1, a2⟩ := h4 1 (by decide) [[⟨str! "HCN_s", 1, str! "HCN", 1, str! "s", str! "HCN_s"⟩],
    [⟨str! "CNH_g", 1, str! "CNH", 1, str! "g", str! "CNH_g"⟩, ⟨str! "*_s", 1, str! "*", 1, str! "s", str! "*_s"⟩]]
    [⟨str! "HCN_s", 1, str! "HCN", 1, str! "s", str! "HCN_s"⟩]
    [⟨str! "CNH_g", 1, str! "CNH", 1, str! "g", str! "CNH_g"⟩, ⟨str! "*_s", 1, str! "*", 1, str! "s", str! "*_s"⟩]
    (by decide) rfl rfl
  have act1 : stateActivity (fun g => if g = str! "HCN_g" then (1 : ℝ) else 0) (fun _ => 0) (coverage exHcnMF.net (fun _ => 1) fun _ => θ)
      [⟨str! "HCN_s", 1, str! "HCN", 1, str! "s", str! "HCN_s"⟩] = θ := by
    unfold stateActivity specAct
    rw [List.map_singleton, show specKind (str! "HCN") (str! "s") = .ads by decide]
    dsimp only
    rw [hcov]
    simp
  have act2 : stateActivity (fun g => if g = str! "HCN_g" then (1 : ℝ) else 0) (fun _ => 0) (coverage exHcnMF.net (fun _ => 1) fun _ => θ)
      [⟨str! "CNH_g", 1, str! "CNH", 1, str! "g", str! "CNH_g"⟩, ⟨str! "*_s", 1, str! "*", 1, str! "s", str! "*_s"⟩] = 0 := by
    unfold stateActivity specAct
    rw [List.map_cons, show specKind (str! "CNH") (str! "g") = .gas by decide]
    dsimp only
    rw [if_neg (by decide)]
    simp
  rw [act1] at a1
  rw [act2, mul_zero] at a2
  have k1 : κf exHcnMF.rxns[1] = kBeV * 450 / heV * Real.exp (-y / (kBeV * 450)) := (Option.some.inj (hf.get 1 (by decide))).symm
  rw [k1] at a1
  obtain ⟨r0, r1, rfl⟩ : ∃ r0 r1, rfs = [r0, r1] := by
    match rfs, h2 with
    | [r0, r1], _ => exact ⟨r0, r1, rfl⟩
  obtain ⟨q0, q1, rfl⟩ : ∃ r0 r1, rrs = [r0, r1] := by
    match rrs, h3 with
    | [r0, r1], _ => exact ⟨r0, r1, rfl⟩
  have a1' : r1 = kBeV * 450 / heV * Real.exp (-y / (kBeV * 450)) * θ := Option.some.inj a1
  have a2' : q1 = 0 := Option.some.inj a2
  have hnet : getNetRates exHcnMF ([kBeV * 450 / heV * Real.exp (-x / (kBeV * 450)), kBeV * 450 / heV * Real.exp (-y / (kBeV * 450))],
      [kBeV * 450 / heV * Real.exp (-z / (kBeV * 450)), kBeV * 450 / heV * Real.exp (-w / (kBeV * 450))]) [θ]
      = .ok [r0 - q0, r1 - q1] := by
    unfold getNetRates
    have : exHcnMF.net.ads.map (fun _ => θ) = [θ] := by rw [hads]; rfl
    rw [this] at h1
    rw [h1]
    rfl
  have := (C69_turnover exHcnMF _ _ _ exHcn_ready.parse hnet rfl).2.1 (str! "CNH_g") (by decide)
  unfold exHcnXrc solverXrc
  dsimp only
  rw [exHcn_constants]
  refine Eq.trans this ?_
  unfold production
  rw [show exHcnMF.net.rxns = [[[⟨str! "HCN_g", 1, str! "HCN", 1, str! "g", str! "HCN_g"⟩, ⟨str! "*_s", 1, str! "*", 1, str! "s", str! "*_s"⟩],
    [⟨str! "HCN_s", 1, str! "HCN", 1, str! "s", str! "HCN_s"⟩]],
    [[⟨str! "HCN_s", 1, str! "HCN", 1, str! "s", str! "HCN_s"⟩],
    [⟨str! "CNH_g", 1, str! "CNH", 1, str! "g", str! "CNH_g"⟩, ⟨str! "*_s", 1, str! "*", 1, str! "s", str! "*_s"⟩]]] by decide]
  simp only [List.zipWith_cons_cons, List.zipWith_nil_left]
  rw [show produced (str! "CNH_g") [[⟨str! "HCN_g", 1, str! "HCN", 1, str! "g", str! "HCN_g"⟩, ⟨str! "*_s", 1, str! "*", 1, str! "s", str! "*_s"⟩],
    [⟨str! "HCN_s", 1, str! "HCN", 1, str! "s", str! "HCN_s"⟩]] = 0 by decide,
    show produced (str! "CNH_g") [[⟨str! "HCN_s", 1, str! "HCN", 1, str! "s", str! "HCN_s"⟩],
    [⟨str! "CNH_g", 1, str! "CNH", 1, str! "g", str! "CNH_g"⟩, ⟨str! "*_s", 1, str! "*", 1, str! "s", str! "*_s"⟩]] = 1 by decide]
  simp [a1', a2']

noncomputable def exHcnState : SolveState ℝ := ⟨some (exHcnFound ([0, 0], [0, 0])), none, true, [], []⟩

theorem exHcn_runs (eps : ℝ) : ∃ vs st' heap', getXRC exHcnXrc eps 2 [([0, 0], [0, 0])] exHcnState = some (st', .ok (heap', vs)) := by
  have hk : ∀ x y z w, exHcnXrc.kf ([x, y], [z, w])
      = .ok [kBeV * 450 / heV * Real.exp (-x / (kBeV * 450)), kBeV * 450 / heV * Real.exp (-y / (kBeV * 450))] := by
    intro x y z w
    unfold exHcnXrc solverXrc
    dsimp only
    rw [exHcn_constants]
    rfl
  have one : ∀ (guess : List ℝ) (r a b : ℝ) (rest : EnergyHeap ℝ) (st : SolveState ℝ) (i : Nat), i = 0 ∨ i = 1 →
      ∃ st' rest' v, xrcOne exHcnXrc eps guess r [a, b] i (([0, 0], [0, 0]) :: rest) st
        = some (st', .ok (([0, 0], [0, 0]) :: rest', v)) := by
    intro guess r a b rest st i hi
    have hs : ∀ x y z w, exHcnXrc.steady ([x, y], [z, w]) guess st
      = some ({ st with coverages := some (exHcnFound ([x, y], [z, w])) }, .returned (exHcnFound ([x, y], [z, w]))) := fun _ _ _ _ => rfl
    have ht : ∀ x y z w, ∃ t, exHcnXrc.tof ([x, y], [z, w]) (exHcnFound ([x, y], [z, w])) = .ok t := fun x y z w => ⟨_, exHcn_tof x y z w _⟩
    rcases hi with rfl | rfl
    · obtain ⟨t, ht⟩ := ht (0 + eps) 0 (0 + eps) 0
      unfold xrcOne perturb
      dsimp only
      rw [if_pos (by simp)]
      dsimp only [List.modify_zero_cons, List.getElem?_cons_zero]
      rw [hk]
      dsimp only [List.getElem?_cons_zero]
      rw [hs]
      dsimp only
      rw [ht]
      exact ⟨_, _, _, rfl⟩
    · obtain ⟨t, ht⟩ := ht 0 (0 + eps) 0 (0 + eps)
      unfold xrcOne perturb
      dsimp only
      rw [if_pos (by simp)]
      dsimp only [List.modify_succ_cons, List.modify_zero_cons, List.getElem?_cons_zero, List.getElem?_cons_succ]
      rw [hk]
      dsimp only [List.getElem?_cons_zero, List.getElem?_cons_succ]
      rw [hs]
      dsimp only
      rw [ht]
      exact ⟨_, _, _, rfl⟩
  unfold getXRC exHcnState
  dsimp only [exHcnFound]
  rw [exHcn_tof, hk]
  dsimp only
  rw [show List.range 2 = [0, 1] from rfl]
  obtain ⟨s1, rest1, v1, h1⟩ := one _ _ _ _ [] _ 0 (Or.inl rfl)
  rw [xrcLoop, h1]
  dsimp only
  obtain ⟨s2, rest2, v2, h2⟩ := one _ _ _ _ rest1 s1 1 (Or.inr rfl)
  rw [xrcLoop, h2]
  exact ⟨_, _, _, rfl⟩

open Filter Topology in
/-- All hypotheses of `C90_sum_partial` are met by the isomerisation. -/
example : ∃ vs : ℝ → List (XrcValue ℝ), (∀ eps, ∃ st' heap', getXRC exHcnXrc eps 2 [([0, 0], [0, 0])] exHcnState
      = some (st', .ok (heap', vs eps))) ∧
    Tendsto (fun eps => ((vs eps).map XrcValue.number).sum) (𝓝[≠] 0) (𝓝 1) := by
  choose vs hvs using exHcn_runs
  refine ⟨vs, hvs, ?_⟩
  have hraise : ∀ δ : Fin 2 → ℝ, raisedBy (([0, 0], [0, 0]) : List ℝ × List ℝ) δ = ([δ 0, δ 1], [δ 0, δ 1]) := by
    intro δ
    unfold raisedBy raised
    simp [List.mapIdx_cons]
  have hpos : ∀ a : ℝ, 0 < Real.exp a := Real.exp_pos
  have htof : ∀ δ : Fin 2 → ℝ, exHcnXrc.tof (raisedBy (([0, 0], [0, 0]) : List ℝ × List ℝ) δ)
      (exHcnFound (raisedBy (([0, 0], [0, 0]) : List ℝ × List ℝ) δ)) = .ok (exHcnF δ) := by
    intro δ
    rw [hraise]
    dsimp only [exHcnFound]
    rw [exHcn_tof]
    unfold exHcnF
    congr 1
    ring
  exact (C90_sum_partial exHcnRo exHcnMF [0, 0] (str! "CNH_g") exHcnSteady (by norm_num [exHcnRo]) rfl (by decide) ([0, 0], [0, 0])
    rfl rfl [] exHcnState _ rfl exHcnFound (fun e' s s' x h => by
      unfold exHcnSteady at h
      have := (Prod.mk.inj (Option.some.inj h)).2
      cases this
      rfl)
    exHcnF (Eventually.of_forall htof)
    (show DifferentiableAt ℝ exHcnF 0 by
      unfold exHcnF
      have h0 : DifferentiableAt ℝ (fun δ : Fin 2 → ℝ => δ 0) 0 := differentiableAt_apply 0 0
      have h1 : DifferentiableAt ℝ (fun δ : Fin 2 → ℝ => δ 1) 0 := differentiableAt_apply 1 0
      have e0 : DifferentiableAt ℝ (fun δ : Fin 2 → ℝ => Real.exp (-δ 0 / (kBeV * 450))) 0 := by
        simp only [div_eq_mul_inv]
        exact (DifferentiableAt.mul_const (DifferentiableAt.fun_neg h0) (kBeV * 450)⁻¹).exp
      have e1 : DifferentiableAt ℝ (fun δ : Fin 2 → ℝ => Real.exp (-δ 1 / (kBeV * 450))) 0 := by
        simp only [div_eq_mul_inv]
        exact (DifferentiableAt.mul_const (DifferentiableAt.fun_neg h1) (kBeV * 450)⁻¹).exp
      simp only [div_eq_mul_inv _ (Real.exp _ + Real.exp _ + Real.exp _)]
      refine DifferentiableAt.fun_mul ((e0.fun_mul e1).const_mul _) (DifferentiableAt.fun_inv ((e0.fun_add e0).fun_add e1) ?_)
      positivity)
    (by
      unfold exHcnF
      have a := kBeV_pos
      have b := heV_pos
      positivity)
    (Eventually.of_forall fun c => by
      show exHcnFound (raisedBy (([0, 0], [0, 0]) : List ℝ × List ℝ) (n := 2) fun _ => c) = _
      rw [hraise]
      dsimp only [exHcnFound]
      congr 1
      have := hpos (-c / (kBeV * 450))
      simp only [neg_zero, zero_div, Real.exp_zero]
      field_simp)
    vs (Eventually.of_forall hvs)).2

/-! ### A network that lists a reaction twice -/

def exTwice : List Str := [str! "HCN_g + *_s -> HCN_s", str! "HCN_g + *_s -> HCN_s"]
noncomputable def exTwiceMF : MFOwner ℝ := ⟨exTwice, netOf exTwice, [(str! "*_s", 1)], [(str! "HCN_g", 1)], []⟩
noncomputable def exTwiceRo : RateOwner := ⟨exTwice, 450, [], 0, 0, false⟩
/-- A search that finds the initial guess again. -/
def exSameSteady (_ : List ℝ × List ℝ) (g : List ℝ) (s : SolveState ℝ) : Option (SolveState ℝ × Outcome ℝ) :=
  some (s, .returned g)

/-- `C90_defined`, `C90_value` and `C90_repeated_refuted` apply to it: the calculation gives a
list of two values, the second of which is `inf`. -/
example (eps : ℝ) (st : SolveState ℝ) (hg : st.coverages = some [1 / 2]) :
    ∃ st' heap' vs, getXRC (solverXrc exTwiceRo exTwiceMF [0, 0] (str! "HCN_g") exSameSteady) eps 2 [([0, 0], [0, 0])] st
      = some (st', .ok (heap', vs)) ∧ vs[1]? = some .inf := by
  have hT : exTwiceRo.T ≠ 0 := by norm_num [exTwiceRo]
  have h1 : ratesTST exTwiceRo ⟨some [0, 0], some [0, 0], some [0, 0]⟩ false (str! "HCN_g + *_s -> HCN_s")
      = .ok (kBeV * 450 / heV * Real.exp (-0 / (kBeV * 450)), kBeV * 450 / heV * Real.exp (-0 / (kBeV * 450))) :=
    ratesTST_ok.mpr ⟨⟨0, 0, 0⟩, relOf_ok.mpr ⟨by decide, _, _, _, rfl, rfl, rfl, rfl, rfl, rfl⟩,
      (kTST_ok hT).mpr rfl, (kTST_ok hT).mpr rfl⟩
  obtain ⟨c, hc⟩ : ∃ c, rateConstants exTwiceRo .TST ⟨some [0, 0], some [0, 0], some [0, 0]⟩ = .ok ([c, c], [c, c]) := by
    refine ⟨kBeV * 450 / heV * Real.exp (-0 / (kBeV * 450)), ?_⟩
    unfold rateConstants
    rw [if_neg (by simp)]
    simp only [show exTwiceRo.rxns = [str! "HCN_g + *_s -> HCN_s", str! "HCN_g + *_s -> HCN_s"] from rfl,
      List.mapM_cons, List.mapM_nil, h1, bind, Except.bind, pure, Except.pure, List.map_cons, List.map_nil]
  have hready : Ready exTwiceMF (fun _ => 1) (fun _ => 1) (fun _ => 0) := by
    have e1 : exTwiceMF.net.sites = [str! "*_s"] := by decide
    have e2 : exTwiceMF.net.gas = [str! "HCN_g"] := by decide
    have e3 : exTwiceMF.net.liq = [] := by decide
    refine ⟨by decide, ?_, ?_, ?_⟩
    · rw [e1]; simp only [List.mem_singleton, forall_eq]; rfl
    · rw [e2]; simp only [List.mem_singleton, forall_eq]; rfl
    · rw [e3]; simp
  have hkok : KOk exTwiceMF.rxns [c, c] (fun _ => c) := by
    refine ⟨?_⟩
    intro i hi
    match i, hi with
    | 0, _ => rfl
    | 1, _ => rfl
  obtain ⟨rfs, rrs, g1, -, -, -⟩ := getRates_ok hready
    (fun st hst => rateClean_of ((by decide : ∀ st ∈ (netOf exTwice).rxns, rateCleanB st = true) st hst))
    (fun _ => 1 / 2) _ _ _ _ hkok hkok
  have hnet : getNetRates exTwiceMF ([c, c], [c, c]) [1 / 2] = .ok (List.zipWith (· - ·) rfs rrs) := by
    unfold getNetRates
    have : exTwiceMF.net.ads.map (fun _ => (1 / 2 : ℝ)) = [1 / 2] := by
      rw [show exTwiceMF.net.ads = [str! "HCN_s"] by decide]; rfl
    rw [this] at g1
    rw [g1]
    rfl
  obtain ⟨st', heap', vs, h⟩ := C90_defined exTwiceRo exTwiceMF [0, 0] (str! "HCN_g") exSameSteady hT rfl hready.parse
    (by decide) eps ([0, 0], [0, 0]) rfl rfl st [1 / 2] _ _ hg hc hnet (fun e' s => ⟨s, rfl⟩)
  exact ⟨st', heap', vs, h, C90_repeated_refuted exTwiceRo exTwiceMF [0, 0] (str! "HCN_g") exSameSteady hT rfl eps _ _ _ vs _ _ h
    1 0 (by decide) (by decide) rfl⟩

end Verif
