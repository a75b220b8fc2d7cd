import Verif.Props.Jacobian
import Verif.Model.SteadyLoop
import Mathlib.Analysis.Calculus.Deriv.Pi
import Mathlib.Analysis.Calculus.Deriv.Prod
import Mathlib.Analysis.Calculus.FDeriv.Pi
import Mathlib.Analysis.Calculus.FDeriv.Mul
import Mathlib.Analysis.Calculus.FDeriv.Pow
import Mathlib.Analysis.Calculus.Deriv.Comp
import Mathlib.Analysis.Calculus.Deriv.Slope
import Mathlib.Analysis.Calculus.FDeriv.Add
import Mathlib.Analysis.SpecificLimits.Basic
import Mathlib.Analysis.SpecialFunctions.Pow.Real
/- C97: the halving of steps in the precise search ends, with a smaller residual. -/
namespace Verif
open Dict
open scoped Topology Filter
set_option linter.unusedSectionVars false

/-! ## The coverage equations as one function of all coverages -/

section
variable {E : Type} [NormedAddCommGroup E] [NormedSpace ℝ E]

theorem contDiff_listSum {α : Type} (l : List α) (f : α → E → ℝ) (h : ∀ a ∈ l, ContDiff ℝ 1 (f a)) :
    ContDiff ℝ 1 fun y => (l.map fun a => f a y).sum := by
  induction l with
  | nil => simpa using contDiff_const
  | cons a l ih =>
    simp only [List.map_cons, List.sum_cons]
    exact (h a (by simp)).add (ih fun b hb => h b (by simp [hb]))

theorem contDiff_listProd {α : Type} (l : List α) (f : α → E → ℝ) (h : ∀ a ∈ l, ContDiff ℝ 1 (f a)) :
    ContDiff ℝ 1 fun y => (l.map fun a => f a y).prod := by
  induction l with
  | nil => simpa using contDiff_const
  | cons a l ih =>
    simp only [List.map_cons, List.prod_cons]
    exact (h a (by simp)).mul (ih fun b hb => h b (by simp [hb]))

theorem contDiff_coverage (n : Network) (total : Str → ℝ) (v : E → Str → ℝ) (hv : ∀ a, ContDiff ℝ 1 fun y => v y a) (x : Str) :
    ContDiff ℝ 1 fun y => coverage n total (v y) x := by
  unfold coverage
  split
  · exact hv x
  · exact contDiff_const.sub (contDiff_listSum _ (fun a y => v y a) fun a _ => hv a)

theorem contDiff_term (n : Network) (total P C : Str → ℝ) (kf kr : List ℝ) (v : E → Str → ℝ)
    (hv : ∀ a, ContDiff ℝ 1 fun y => v y a) (T : Term) :
    ContDiff ℝ 1 fun y => vals kf kr P C (coverage n total (v y)) (termPieces T) := by
  unfold vals
  apply contDiff_listProd _ (fun (x : Piece ℝ) y => pieceVal kf kr P C (coverage n total (v y)) x)
  intro x hx
  unfold termPieces at hx
  rw [List.mem_append, List.mem_cons] at hx
  rcases hx with hx | rfl | hx
  · split at hx
    · simp at hx
    · rw [List.mem_singleton.mp hx]; exact contDiff_const
  · exact contDiff_const
  · obtain ⟨f, -, rfl⟩ := List.mem_map.mp hx
    show ContDiff ℝ 1 fun y => facVal P C (coverage n total (v y)) f
    unfold facVal
    apply ContDiff.pow
    cases f.var
    · exact contDiff_coverage n total v hv _
    · exact contDiff_const
    · exact contDiff_const

end

/-- The coverages of the adsorbates by name. -/
noncomputable def byName (ads : List Str) (y : Fin ads.length → ℝ) (a : Str) : ℝ :=
  if h : ads.idxOf a < ads.length then y ⟨ads.idxOf a, h⟩ else 0

theorem byName_map {ads : List Str} (hn : ads.Nodup) (y : Fin ads.length → ℝ) : ads.map (byName ads y) = List.ofFn y := by
  apply List.ext_getElem
  · simp
  · intro i h1 h2
    rw [List.length_map] at h1
    rw [List.getElem_map, List.getElem_ofFn]
    unfold byName
    have e : ads.idxOf ads[i] = i := List.Nodup.idxOf_getElem hn i h1
    rw [dif_pos (by rw [e]; exact h1)]
    congr 1
    exact Fin.ext e

theorem byName_contDiff (ads : List Str) (a : Str) : ContDiff ℝ 1 fun y => byName ads y a := by
  unfold byName
  split
  · exact contDiff_apply _ _ _
  · exact contDiff_const

/-- The coverage equations are given by one function, continuously differentiable in all coverages together. -/
theorem equations_contDiff {o : MFOwner ℝ} {total P C : Str → ℝ} (h : Ready o total P C)
    (hc : ∀ states ∈ o.net.rxns, RateClean states)
    (hsim : ∀ states ∈ o.net.rxns, ∀ fs, (states.head? = some fs ∨ states.getLast? = some fs) → SimpleState fs)
    (kf kr : List ℝ) (hkf : kf.length = o.rxns.length) (hkr : kr.length = o.rxns.length) :
    ∃ F : (Fin o.net.ads.length → ℝ) → Fin o.net.ads.length → ℝ, ContDiff ℝ 1 F ∧
      ∀ y, steadyStateFunction o (kf, kr) (List.ofFn y) = .ok (List.ofFn (F y)) := by
  obtain ⟨qs, hqs⟩ := mapM_ok_exists (f := adsorbateDtheta o) (l := o.net.ads)
    (fun a ha => by obtain ⟨q, hq, -⟩ := adsorbateDtheta_terms h.parse ha; exact ⟨q, hq⟩)
  obtain ⟨ql, qg⟩ := mapM_ok_inv hqs
  have htext : ∀ q ∈ qs, ∀ t ∈ q, TextOk o.net kf kr (termPieces t.2) := by
    intro q hq t ht
    obtain ⟨i, hi, rfl⟩ := List.mem_iff_getElem.mp hq
    obtain ⟨q, hq1, hq2⟩ := adsorbateDtheta_terms h.parse (List.getElem_mem (l := o.net.ads) (n := i) (by omega))
    have hqi := qg i (by omega) hi
    rw [hq1] at hqi
    rw [← Except.ok.inj hqi] at ht
    obtain ⟨j, hj, st, is, fs, n, e1, e2, e3, e4, o1, o2, hcase⟩ := hq2 t ht
    have hst := List.mem_of_getElem? e2
    have hlt := (idxOf_getElem?_same hj).1
    rcases hcase with ⟨hT, -⟩ | ⟨hT, -⟩
    · rw [hT]
      exact (textOk_of h kf kr (hc st hst) (Or.inl e3) o1 (hsim st hst is (Or.inl e3)) n
          (o.rxns.idxOf o.rxns[j]) true (by rw [if_pos rfl]; omega)).1
    · rw [hT]
      exact (textOk_of h kf kr (hc st hst) (Or.inr e4) o2 (hsim st hst fs (Or.inr e4)) n
          (o.rxns.idxOf o.rxns[j]) false (by simp; omega)).1
  let G (q : Poly) (y : Fin o.net.ads.length → ℝ) : ℝ :=
    (q.map fun t => if t.1 then vals kf kr P C (coverage o.net total (byName o.net.ads y)) (termPieces t.2)
      else -vals kf kr P C (coverage o.net total (byName o.net.ads y)) (termPieces t.2)).sum
  refine ⟨fun y i => G (qs[i.1]'(by omega)) y, ?_, ?_⟩
  · rw [contDiff_pi]
    intro i
    apply contDiff_listSum _ (fun (t : Bool × Term) y => if t.1 then
      vals kf kr P C (coverage o.net total (byName o.net.ads y)) (termPieces t.2)
      else -vals kf kr P C (coverage o.net total (byName o.net.ads y)) (termPieces t.2))
    intro t _
    have := contDiff_term o.net total P C kf kr (fun y => byName o.net.ads y) (byName_contDiff o.net.ads) t.2
    cases t.1
    · exact this.neg
    · exact this
  · intro y
    obtain ⟨env, e1, e2, e3, e4⟩ := mkEnv_ok h (byName o.net.ads y) (kf, kr)
    rw [byName_map (ads_nodup h.parse)] at e1
    have hq : ∀ q ∈ qs, evalPoly env q = .ok (G q y) := by
      intro q hq
      unfold evalPoly
      have : ∀ t ∈ q, (do
          let x ← evalTerm env t.2
          pure (if t.1 then x else -x) : Py ℝ) = .ok (if t.1 then
            vals kf kr P C (coverage o.net total (byName o.net.ads y)) (termPieces t.2)
            else -vals kf kr P C (coverage o.net total (byName o.net.ads y)) (termPieces t.2)) := by
        intro t ht
        have h2 : evalTerm env t.2 = .ok (vals kf kr P C (coverage o.net total (byName o.net.ads y)) (termPieces t.2)) := by
          have := evalTerm_vals e4 (T := t.2) (by rw [e2, e3]; exact htext q hq t ht)
          rw [e2, e3] at this
          exact this
        simp only [h2, bind, Except.bind, pure, Except.pure]
      rw [mapM_ok_map this]
      rfl
    unfold steadyStateFunction
    rw [e1]
    simp only [bind, Except.bind, hqs]
    rw [mapM_ok_map hq]
    congr 1
    apply List.ext_getElem
    · simp [ql]
    · intro i h1 h2
      simp

/-! ## The direction of a Newton step -/

/-- Specification: a matrix times a vector. -/
def matVec (J : List (List ℝ)) (s : List ℝ) : List ℝ := J.map fun row => (row.zipWith (· * ·) s).sum

/-- Specification: the Euclidean norm. -/
noncomputable def euclid (x : List ℝ) : ℝ := Real.sqrt ((x.map (· ^ 2)).sum)

theorem ofFn_set {n : Nat} (y : Fin n → ℝ) (j : Fin n) (t : ℝ) : (List.ofFn y).set j.1 t = List.ofFn (Function.update y j t) := by
  apply List.ext_getElem
  · simp
  · intro i h1 h2
    rw [List.getElem_set, List.getElem_ofFn, List.getElem_ofFn]
    split
    · rename_i e
      have : (⟨i, by simpa using h2⟩ : Fin n) = j := Fin.ext e.symm
      rw [this, Function.update_self]
    · rename_i e
      rw [Function.update_of_ne]
      intro e'
      exact e (by rw [← e'])

theorem zipWith_ofFn_sum {n : Nat} (a b : Fin n → ℝ) : ((List.ofFn a).zipWith (· * ·) (List.ofFn b)).sum = ∑ j, a j * b j := by
  have : (List.ofFn a).zipWith (· * ·) (List.ofFn b) = List.ofFn fun j => a j * b j := by
    apply List.ext_getElem
    · simp
    · intro i h1 h2; simp
  rw [this, List.sum_ofFn]

theorem exists_ofFn {n : Nat} {l : List ℝ} (h : l.length = n) : ∃ y : Fin n → ℝ, l = List.ofFn y := by
  subst h
  exact ⟨fun i => l[i.1], by simp⟩

/-- The analytical Jacobian times a vector is the derivative of the coverage equations in its direction. -/
theorem jacobian_apply {o : MFOwner ℝ} {total P C : Str → ℝ} (h : Ready o total P C)
    (hc : ∀ states ∈ o.net.rxns, RateClean states)
    (hsim : ∀ states ∈ o.net.rxns, ∀ fs, (states.head? = some fs ∨ states.getLast? = some fs) → SimpleState fs)
    (kf kr : List ℝ) (hkf : kf.length = o.rxns.length) (hkr : kr.length = o.rxns.length)
    (hself : ∀ a ∈ o.net.ads, ∀ b ∈ o.net.ads, ∀ s, OnSite b s → ∀ states ∈ o.net.rxns, NoSelfSite a b s states)
    {F : (Fin o.net.ads.length → ℝ) → Fin o.net.ads.length → ℝ} (hF : Differentiable ℝ F)
    (hFs : ∀ y, steadyStateFunction o (kf, kr) (List.ofFn y) = .ok (List.ofFn (F y)))
    (y : Fin o.net.ads.length → ℝ) :
    ∃ J, analyticalJacobian o (kf, kr) (List.ofFn y) = .ok J ∧ J.length = o.net.ads.length ∧
      ∀ d, matVec J (List.ofFn d) = List.ofFn (fderiv ℝ F y d) := by
  obtain ⟨J, hJ, hlen, hent⟩ := C28_jacobian_partial o total P C h hc hsim kf kr hkf hkr hself (List.ofFn y) (by simp)
  rw [List.length_ofFn] at hlen
  refine ⟨J, hJ, hlen, fun d => ?_⟩
  apply List.ext_getElem?
  intro i0
  by_cases hi0 : i0 < o.net.ads.length
  swap
  · rw [List.getElem?_eq_none (by unfold matVec; rw [List.length_map]; omega), List.getElem?_eq_none (by simpa using hi0)]
  obtain ⟨i, rfl⟩ : ∃ i : Fin o.net.ads.length, i.1 = i0 := ⟨⟨i0, hi0⟩, rfl⟩
  obtain ⟨row, hrow, hrl, hcol⟩ := hent i.1 (by simp)
  rw [List.length_ofFn] at hrl
  have hent' : ∀ j : Fin o.net.ads.length, row[j.1]? = some (fderiv ℝ F y (Pi.single j 1) i) := by
    intro j
    obtain ⟨D, f, h1, h2, h3⟩ := hcol j.1 (by simp)
    rw [h1]
    have hf : f = fun t => F (Function.update y j t) i := by
      funext t
      obtain ⟨ds, e1, e2⟩ := h2 t
      rw [ofFn_set, hFs] at e1
      cases e1
      simpa using e2.symm
    have hd : HasDerivAt (fun t => F (Function.update y j t) i) (fderiv ℝ F y (Pi.single j 1) i) (y j) := by
      have h4 := hasDerivAt_update y j (y j)
      have h5 : HasFDerivAt F (fderiv ℝ F y) (Function.update y j (y j)) := by
        rw [Function.update_eq_self]; exact (hF y).hasFDerivAt
      have h6 := h5.comp_hasDerivAt (y j) h4
      exact (hasDerivAt_pi.mp h6) i
    rw [List.getElem_ofFn] at h3
    rw [hf] at h3
    rw [h3.unique hd]
  have hrowe : row = List.ofFn fun j => fderiv ℝ F y (Pi.single j 1) i := by
    apply List.ext_getElem?
    intro j
    by_cases hj : j < o.net.ads.length
    · rw [hent' ⟨j, hj⟩]; simp [hj]
    · rw [List.getElem?_eq_none (by omega), List.getElem?_eq_none (by simpa using hj)]
  unfold matVec
  rw [List.getElem?_map, hrow, List.getElem?_ofFn, dif_pos hi0, Option.map_some, hrowe, zipWith_ofFn_sum]
  congr 1
  have hd : d = ∑ j, d j • (Pi.single j (1 : ℝ) : Fin o.net.ads.length → ℝ) := by
    funext k
    simp [Finset.sum_apply, Pi.single_apply]
  conv_rhs => rw [hd]
  rw [map_sum, Finset.sum_apply]
  apply Finset.sum_congr rfl
  intro j _
  rw [map_smul, Pi.smul_apply, smul_eq_mul, mul_comm]

/-- Along the direction found from the analytical Jacobian the value of the coverage equations changes by minus itself. -/
theorem newton_direction {n : Nat} {F : (Fin n → ℝ) → Fin n → ℝ} (hF : Differentiable ℝ F) (y d : Fin n → ℝ)
    (hd : fderiv ℝ F y d = fun i => -F y i) (i : Fin n) : HasDerivAt (fun t : ℝ => F (fun j => y j + t * d j) i) (-F y i) 0 := by
  have hline : HasDerivAt (fun t : ℝ => fun j => y j + t * d j) d 0 := by
    rw [hasDerivAt_pi]
    intro j
    simpa using ((hasDerivAt_id (0 : ℝ)).mul_const (d j)).const_add (y j)
  have h0 : (fun j => y j + (0 : ℝ) * d j) = y := by funext j; simp
  have h5 : HasFDerivAt F (fderiv ℝ F y) (fun j => y j + (0 : ℝ) * d j) := by
    rw [h0]; exact (hF y).hasFDerivAt
  have h6 := (hasDerivAt_pi.mp (h5.comp_hasDerivAt (0 : ℝ) hline)) i
  rw [hd] at h6
  exact h6

/-- Close to the start the norm is smaller. -/
theorem norm_falls {n : Nat} {g : ℝ → Fin n → ℝ} (hg : ∀ i, HasDerivAt (fun t => g t i) (-g 0 i) 0) (h0 : ∃ i, g 0 i ≠ 0) :
    ∀ᶠ t in 𝓝[>] (0 : ℝ), euclid (List.ofFn (g t)) < euclid (List.ofFn (g 0)) := by
  have hq : ∀ t, ((List.ofFn (g t)).map (· ^ 2)).sum = ∑ i, g t i ^ 2 := by
    intro t
    rw [List.map_ofFn, List.sum_ofFn]; rfl
  have hpos : 0 < ∑ i, g 0 i ^ 2 := by
    obtain ⟨i, hi⟩ := h0
    exact Finset.sum_pos' (fun j _ => sq_nonneg _) ⟨i, Finset.mem_univ _, by positivity⟩
  have hd : HasDerivAt (fun t => ∑ i, g t i ^ 2) (-(2 * ∑ i, g 0 i ^ 2)) 0 := by
    have h1 : HasDerivAt (fun t => ∑ i, g t i ^ 2) (∑ i, 2 * g 0 i * -g 0 i) 0 := by
      apply HasDerivAt.fun_sum
      intro i _
      have := (hg i).fun_pow 2
      refine this.congr_deriv ?_
      norm_num
    refine h1.congr_deriv ?_
    rw [Finset.mul_sum, ← Finset.sum_neg_distrib]
    apply Finset.sum_congr rfl
    intro i _
    ring
  have hs := hd.tendsto_slope_zero_right
  have hev := hs.eventually (eventually_lt_nhds (show -(2 * ∑ i, g 0 i ^ 2) < 0 by linarith))
  filter_upwards [hev, self_mem_nhdsWithin] with t ht htp
  have htp' : (0 : ℝ) < t := htp
  rw [zero_add, smul_eq_mul] at ht
  have : (∑ i, g t i ^ 2) - ∑ i, g 0 i ^ 2 < 0 := by
    by_contra hn
    push Not at hn
    have := mul_nonneg (inv_nonneg.mpr htp'.le) hn
    linarith
  unfold euclid
  rw [hq, hq]
  exact Real.sqrt_lt_sqrt (Finset.sum_nonneg fun i _ => sq_nonneg _) (by linarith)

/-! ## The halving of the step -/

section
variable {o : MFOwner ℝ} {total P C : Str → ℝ}

/-- What is used of the linear solver: a direction it returns solves the equations. -/
def SolvesRight (solve : List (List ℝ) → List ℝ → Py (List ℝ)) : Prop :=
  ∀ J fx s, solve J fx = .ok s → s.length = fx.length ∧ matVec J s = fx.map (- ·)

theorem move_ofFn {n : Nat} (y d : Fin n → ℝ) (l : ℝ) :
    (List.ofFn y).zipWith (fun a b => a + l * b) (List.ofFn d) = List.ofFn fun j => y j + l * d j := by
  apply List.ext_getElem
  · simp
  · intro i h1 h2; simp

/-- A search that tries `l, l/2, l/4, …` finds the first step with a smaller norm. -/
theorem lineSearch_finds (p : NewtonProblem (List ℝ) ℝ (List ℝ) (List (List ℝ))) (x0 s : List ℝ) (fxnorm : ℝ)
    (hmove : ∀ l, 0 < l → p.move x0 l s ≠ x0) (hf : ∀ l, ∃ fx, p.f (p.move x0 l s) = .ok fx) :
    ∀ (k : Nat) (l : ℝ) (fx : List ℝ), 0 < l →
      (∃ fx1, p.f (p.move x0 (l / 2 ^ k) s) = .ok fx1 ∧ p.norm fx1 < fxnorm) →
      ∃ x1 fx1, p.f x1 = .ok fx1 ∧ p.norm fx1 < fxnorm ∧ (∃ l', 0 < l' ∧ l' ≤ l ∧ x1 = p.move x0 l' s) ∧
        ∀ m, k < m → lineSearch p (· / 2) x0 s fxnorm m l fx = some (.ok (.accepted x1 (p.norm fx1) fx1)) := by
  intro k
  induction k with
  | zero =>
    rintro l fx hl ⟨fx1, h1, h2⟩
    rw [pow_zero, div_one] at h1
    refine ⟨_, fx1, h1, h2, ⟨l, hl, le_refl _, rfl⟩, fun m hm => ?_⟩
    obtain ⟨m, rfl⟩ : ∃ m', m = m' + 1 := ⟨m - 1, by omega⟩
    unfold lineSearch
    rw [if_neg (hmove l hl), h1]
    dsimp only
    rw [if_pos h2]
  | succ k ih =>
    rintro l fx hl ⟨fx1, h1, h2⟩
    obtain ⟨fx0, h0⟩ := hf l
    by_cases hn : p.norm fx0 < fxnorm
    · refine ⟨_, fx0, h0, hn, ⟨l, hl, le_refl _, rfl⟩, fun m hm => ?_⟩
      obtain ⟨m, rfl⟩ : ∃ m', m = m' + 1 := ⟨m - 1, by omega⟩
      unfold lineSearch
      rw [if_neg (hmove l hl), h0]
      dsimp only
      rw [if_pos hn]
    · obtain ⟨x1, fx2, a1, a2, ⟨l', b1, b2, b3⟩, a3⟩ := ih (l / 2) fx0 (by positivity) ⟨fx1, by rw [div_div, ← pow_succ']; exact h1, h2⟩
      refine ⟨x1, fx2, a1, a2, ⟨l', b1, by linarith, b3⟩, fun m hm => ?_⟩
      obtain ⟨m, rfl⟩ : ∃ m', m = m' + 1 := ⟨m - 1, by omega⟩
      unfold lineSearch
      rw [if_neg (hmove l hl), h0]
      dsimp only
      rw [if_neg hn]
      exact a3 m (by omega)

/-- One step: from coverages with a nonzero residual the halving ends, with a smaller norm. -/
theorem step_falls (h : Ready o total P C) (hc : ∀ states ∈ o.net.rxns, RateClean states)
    (hsim : ∀ states ∈ o.net.rxns, ∀ fs, (states.head? = some fs ∨ states.getLast? = some fs) → SimpleState fs)
    (kf kr : List ℝ) (hkf : kf.length = o.rxns.length) (hkr : kr.length = o.rxns.length)
    (hself : ∀ a ∈ o.net.ads, ∀ b ∈ o.net.ads, ∀ s, OnSite b s → ∀ states ∈ o.net.rxns, NoSelfSite a b s states)
    (solve : List (List ℝ) → List ℝ → Py (List ℝ)) (hsolve : SolvesRight solve)
    (x fx : List ℝ) (hx : x.length = o.net.ads.length) (hfx : steadyStateFunction o (kf, kr) x = .ok fx) (hne : ∃ v ∈ fx, v ≠ 0) :
    ∃ J, analyticalJacobian o (kf, kr) x = .ok J ∧ ∀ s, solve J fx = .ok s →
      ∃ K x1 fx1, x1.length = o.net.ads.length ∧ steadyStateFunction o (kf, kr) x1 = .ok fx1 ∧ euclid fx1 < euclid fx ∧
        ∀ m, K < m → lineSearch (ssProblem o (kf, kr) solve euclid) (· / 2) x s (euclid fx) m 1 fx = some (.ok (.accepted x1 (euclid fx1) fx1)) := by
  obtain ⟨F, hF', hFs⟩ := equations_contDiff h hc hsim kf kr hkf hkr
  have hF := hF'.differentiable one_ne_zero
  obtain ⟨y, rfl⟩ := exists_ofFn hx
  rw [hFs] at hfx
  have hfx' := Except.ok.inj hfx
  subst hfx'
  obtain ⟨J, hJ, hJl, hmv⟩ := jacobian_apply h hc hsim kf kr hkf hkr hself hF hFs y
  refine ⟨J, hJ, fun s hs => ?_⟩
  obtain ⟨hsl, hsv⟩ := hsolve J _ s hs
  rw [List.length_ofFn] at hsl
  obtain ⟨d, rfl⟩ := exists_ofFn hsl
  rw [List.map_ofFn, hmv] at hsv
  have hder := newton_direction hF y d (List.ofFn_injective hsv)
  obtain ⟨v, hv, hv0⟩ := hne
  obtain ⟨i, rfl⟩ := List.mem_ofFn.mp hv
  have hd : ∃ j, d j ≠ 0 := by
    by_contra hn
    push Not at hn
    have h1 := hder i
    have h2 : (fun t : ℝ => F (fun j => y j + t * d j) i) = fun _ => F y i := by
      funext t
      congr 2
      funext j
      rw [hn j]; ring
    rw [h2] at h1
    have := h1.unique (hasDerivAt_const (0 : ℝ) (F y i))
    exact hv0 (by linarith)
  have h0 : (fun j => y j + (0 : ℝ) * d j) = y := by funext j; simp
  have hev := norm_falls (g := fun t => F fun j => y j + t * d j) (by rw [h0]; exact hder) ⟨i, by rw [h0]; exact hv0⟩
  rw [h0] at hev
  have hlim : Filter.Tendsto (fun k : ℕ => (1 : ℝ) / 2 ^ k) Filter.atTop (𝓝[>] 0) := by
    rw [tendsto_nhdsWithin_iff]
    constructor
    · have := tendsto_pow_atTop_nhds_zero_of_lt_one (r := (1 / 2 : ℝ)) (by norm_num) (by norm_num)
      simpa [one_div] using this
    · exact Filter.Eventually.of_forall fun k => by
        show (0 : ℝ) < 1 / 2 ^ k
        positivity
  obtain ⟨k, hk⟩ := (hlim.eventually hev).exists
  obtain ⟨x1, fx1, a1, a2, ⟨l', -, -, b3⟩, a3⟩ := lineSearch_finds (ssProblem o (kf, kr) solve euclid) (List.ofFn y) (List.ofFn d)
    (euclid (List.ofFn (F y))) (fun l hl => by
      show (List.ofFn y).zipWith (fun a b => a + l * b) (List.ofFn d) ≠ List.ofFn y
      rw [move_ofFn]
      intro e
      obtain ⟨j, hj⟩ := hd
      have := congrFun (List.ofFn_injective e) j
      have : l * d j = 0 := by linarith
      rcases mul_eq_zero.mp this with e | e
      · linarith
      · exact hj e) (fun l => by
      refine ⟨List.ofFn (F fun j => y j + l * d j), ?_⟩
      show steadyStateFunction o (kf, kr) ((List.ofFn y).zipWith (fun a b => a + l * b) (List.ofFn d)) = _
      rw [move_ofFn, hFs]) k 1 (List.ofFn (F y)) one_pos
    ⟨List.ofFn (F fun j => y j + 1 / 2 ^ k * d j), by
      show steadyStateFunction o (kf, kr) ((List.ofFn y).zipWith (fun a b => a + 1 / 2 ^ k * b) (List.ofFn d)) = _
      rw [move_ofFn, hFs], hk⟩
  refine ⟨k, x1, fx1, ?_, a1, a2, a3⟩
  rw [b3]
  show ((List.ofFn y).zipWith (fun a b => a + l' * b) (List.ofFn d)).length = _
  rw [move_ofFn, List.length_ofFn]

/-- What has been yielded: values of the function at the points, with norms that get smaller. -/
def Falling (f : List ℝ → Py (List ℝ)) : ℝ → List (Yielded (List ℝ) ℝ (List ℝ)) → Prop
  | _, [] => True
  | v, y :: ys => f y.x = .ok y.fx ∧ y.norm = euclid y.fx ∧ y.norm < v ∧ Falling f y.norm ys

theorem mdLoop_falls (h : Ready o total P C) (hc : ∀ states ∈ o.net.rxns, RateClean states)
    (hsim : ∀ states ∈ o.net.rxns, ∀ fs, (states.head? = some fs ∨ states.getLast? = some fs) → SimpleState fs)
    (kf kr : List ℝ) (hkf : kf.length = o.rxns.length) (hkr : kr.length = o.rxns.length)
    (hself : ∀ a ∈ o.net.ads, ∀ b ∈ o.net.ads, ∀ s, OnSite b s → ∀ states ∈ o.net.rxns, NoSelfSite a b s states)
    (solve : List (List ℝ) → List ℝ → Py (List ℝ)) (hsolve : SolvesRight solve) :
    ∀ (n : Nat) (x fx : List ℝ), x.length = o.net.ads.length → steadyStateFunction o (kf, kr) x = .ok fx →
      ∃ K ys, Falling (steadyStateFunction o (kf, kr)) (euclid fx) ys ∧
        ((ys.length = n ∧ ∀ m, K < m → mdLoop (ssProblem o (kf, kr) solve euclid) 1 (· / 2) m n x (euclid fx) fx = (ys, .running)) ∨
         (∃ J v e, solve J v = .error e ∧ ys.length < n ∧
            ∀ m, K < m → mdLoop (ssProblem o (kf, kr) solve euclid) 1 (· / 2) m n x (euclid fx) fx = (ys, .raised e)) ∨
         ((∀ v ∈ (ys.getLast?.map (·.fx)).getD fx, v = 0) ∧ ys.length < n ∧
            ∀ m, K < m → ys <+: (mdLoop (ssProblem o (kf, kr) solve euclid) 1 (· / 2) m n x (euclid fx) fx).1)) := by
  intro n
  induction n with
  | zero =>
    intro x fx hx hfx
    exact ⟨0, [], trivial, Or.inl ⟨rfl, fun m _ => rfl⟩⟩
  | succ n ih =>
    intro x fx hx hfx
    by_cases hz : ∀ v ∈ fx, v = 0
    · exact ⟨0, [], trivial, Or.inr (Or.inr ⟨by simpa using hz, by simp, fun m _ => List.nil_prefix⟩)⟩
    push Not at hz
    obtain ⟨J, hJ, hst⟩ := step_falls h hc hsim kf kr hkf hkr hself solve hsolve x fx hx hfx hz
    cases hs : solve J fx with
    | error e =>
      refine ⟨0, [], trivial, Or.inr (Or.inl ⟨J, fx, e, hs, by simp, fun m _ => ?_⟩)⟩
      unfold mdLoop
      rw [show (ssProblem o (kf, kr) solve euclid).J x = .ok J from hJ]
      dsimp only
      rw [show (ssProblem o (kf, kr) solve euclid).solve J fx = _ from hs]
    | ok s =>
      obtain ⟨K1, x1, fx1, a1, a2, a3, a4⟩ := hst s hs
      obtain ⟨K2, ys, b1, b2⟩ := ih x1 fx1 a1 a2
      have hstep : ∀ m, max K1 K2 < m → mdLoop (ssProblem o (kf, kr) solve euclid) 1 (· / 2) m (n + 1) x (euclid fx) fx
          = (⟨x1, euclid fx1, fx1⟩ :: (mdLoop (ssProblem o (kf, kr) solve euclid) 1 (· / 2) m n x1 (euclid fx1) fx1).1,
             (mdLoop (ssProblem o (kf, kr) solve euclid) 1 (· / 2) m n x1 (euclid fx1) fx1).2) := by
        intro m hm
        conv_lhs => unfold mdLoop
        rw [show (ssProblem o (kf, kr) solve euclid).J x = .ok J from hJ]
        dsimp only
        rw [show (ssProblem o (kf, kr) solve euclid).solve J fx = _ from hs]
        dsimp only
        rw [a4 m (by omega)]
      refine ⟨max K1 K2, ⟨x1, euclid fx1, fx1⟩ :: ys, ⟨a2, rfl, a3, b1⟩, ?_⟩
      rcases b2 with ⟨c1, c2⟩ | ⟨J', v, e, c1, c2, c3⟩ | ⟨c1, c2, c3⟩
      · refine Or.inl ⟨by simp [c1], fun m hm => ?_⟩
        rw [hstep m hm, c2 m (by omega)]
      · refine Or.inr (Or.inl ⟨J', v, e, c1, by simpa using c2, fun m hm => ?_⟩)
        rw [hstep m hm, c3 m (by omega)]
      · refine Or.inr (Or.inr ⟨?_, by simpa using c2, fun m hm => ?_⟩)
        · rw [List.getLast?_cons]
          cases hl : ys.getLast? with
          | none => rw [hl] at c1; simpa using c1
          | some l => rw [hl] at c1; simpa using c1
        · rw [hstep m hm]
          exact List.cons_prefix_cons.mpr ⟨rfl, c3 m (by omega)⟩

/-- C97: the precise search. From any coverages, when the linear solver returns directions that solve the equations of
Newton's method, each halving of a step ends: the iterator gives the coverages asked for, each with a residual of smaller
norm than the one before, unless the solver raises or coverages at which all equations hold exactly have been reached.
Partial: for networks where the analytical Jacobian is right (C28), and without rounding. -/
theorem C97_descent_partial (o : MFOwner ℝ) (total P C : Str → ℝ) (h : Ready o total P C) (hc : ∀ states ∈ o.net.rxns, RateClean states)
    (hsim : ∀ states ∈ o.net.rxns, ∀ fs, (states.head? = some fs ∨ states.getLast? = some fs) → SimpleState fs)
    (kf kr : List ℝ) (hkf : kf.length = o.rxns.length) (hkr : kr.length = o.rxns.length)
    (hself : ∀ a ∈ o.net.ads, ∀ b ∈ o.net.ads, ∀ s, OnSite b s → ∀ states ∈ o.net.rxns, NoSelfSite a b s states)
    (solve : List (List ℝ) → List ℝ → Py (List ℝ)) (hsolve : SolvesRight solve)
    (c0 : List ℝ) (hl : c0.length = o.net.ads.length) (n : Nat) :
    ∃ fx K ys, steadyStateFunction o (kf, kr) c0 = .ok fx ∧ Falling (steadyStateFunction o (kf, kr)) (euclid fx) ys ∧
        ((ys.length = n ∧ ∀ m, K < m → mdNewton (ssProblem o (kf, kr) solve euclid) 1 (· / 2) m n c0 = (ys, .running)) ∨
         (∃ J v e, solve J v = .error e ∧ ys.length < n ∧
            ∀ m, K < m → mdNewton (ssProblem o (kf, kr) solve euclid) 1 (· / 2) m n c0 = (ys, .raised e)) ∨
         ((∀ v ∈ (ys.getLast?.map (·.fx)).getD fx, v = 0) ∧ ys.length < n ∧
            ∀ m, K < m → ys <+: (mdNewton (ssProblem o (kf, kr) solve euclid) 1 (· / 2) m n c0).1)) := by
  obtain ⟨F, -, hFs⟩ := equations_contDiff h hc hsim kf kr hkf hkr
  obtain ⟨y, rfl⟩ := exists_ofFn hl
  obtain ⟨K, ys, a1, a2⟩ := mdLoop_falls h hc hsim kf kr hkf hkr hself solve hsolve n (List.ofFn y) (List.ofFn (F y)) (by simp) (hFs y)
  refine ⟨_, K, ys, hFs y, a1, ?_⟩
  have e : ∀ m, mdNewton (ssProblem o (kf, kr) solve euclid) 1 (· / 2) m n (List.ofFn y)
      = mdLoop (ssProblem o (kf, kr) solve euclid) 1 (· / 2) m n (List.ofFn y) (euclid (List.ofFn (F y))) (List.ofFn (F y)) := by
    intro m
    unfold mdNewton
    rw [show (ssProblem o (kf, kr) solve euclid).f (List.ofFn y) = .ok (List.ofFn (F y)) from hFs y]
    rfl
  simp only [e]
  exact a2

end

/-- A solver as exact as one wants: it raises when there is no solution. -/
noncomputable def exactSolve (J : List (List ℝ)) (fx : List ℝ) : Py (List ℝ) := by
  classical
  exact if h : ∃ s : List ℝ, s.length = fx.length ∧ matVec J s = fx.map (- ·) then .ok h.choose else .error .ZeroDivisionError

theorem exactSolve_right : SolvesRight exactSolve := by
  intro J fx s h
  unfold exactSolve at h
  split at h
  · rename_i hs
    cases h
    exact hs.choose_spec
  · cases h

/-! A concrete case: CO oxidation from a quarter covered by each adsorbate. -/

theorem exMFR_function : steadyStateFunction exMFR ([2, 3, 5], [7, 11, 13]) [1 / 4, 1 / 4] = .ok [-37 / 32, -29 / 32] := by
  have h1 : (-37 / 32 : ℝ) = [((1 : ℕ) : ℝ) * 2 * [((1 / 2 : ℝ)) ^ 1, (1 - ([1 / 4, 1 / 4] : List ℝ).sum) ^ 1].prod,
      -(((1 : ℕ) : ℝ) * 7 * [(1 / 4 : ℝ) ^ 1].prod),
      ((1 : ℕ) : ℝ) * 13 * [((1 / 8 : ℝ)) ^ 1, (1 - ([1 / 4, 1 / 4] : List ℝ).sum) ^ 2].prod,
      -(((1 : ℕ) : ℝ) * 5 * [(1 / 4 : ℝ) ^ 1, (1 / 4) ^ 1].prod)].sum := by norm_num
  have h2 : (-29 / 32 : ℝ) = [((2 : ℕ) : ℝ) * 3 * [((1 / 4 : ℝ)) ^ 1, (1 - ([1 / 4, 1 / 4] : List ℝ).sum) ^ 2].prod,
      -(((2 : ℕ) : ℝ) * 11 * [(1 / 4 : ℝ) ^ 2].prod),
      ((1 : ℕ) : ℝ) * 13 * [((1 / 8 : ℝ)) ^ 1, (1 - ([1 / 4, 1 / 4] : List ℝ).sum) ^ 2].prod,
      -(((1 : ℕ) : ℝ) * 5 * [(1 / 4 : ℝ) ^ 1, (1 / 4) ^ 1].prod)].sum := by norm_num
  rw [h1, h2]
  rfl

example (n : Nat) : ∃ K ys, Falling (steadyStateFunction exMFR ([2, 3, 5], [7, 11, 13])) (euclid [-37 / 32, -29 / 32]) ys ∧ ys.length ≤ n ∧
      ∀ m, K < m → ys <+: (mdNewton (ssProblem exMFR ([2, 3, 5], [7, 11, 13]) exactSolve euclid) 1 (· / 2) m n [1 / 4, 1 / 4]).1 := by
  obtain ⟨fx, K, ys, h1, h2, h3⟩ := C97_descent_partial exMFR _ _ _ exMFR_ready exMF_clean exMFR_simple [2, 3, 5] [7, 11, 13]
    (by decide) (by decide) exMFR_self exactSolve exactSolve_right [1 / 4, 1 / 4] (by decide) n
  rw [exMFR_function] at h1
  rw [← Except.ok.inj h1] at h2
  refine ⟨K, ys, h2, ?_⟩
  rcases h3 with ⟨a, b⟩ | ⟨J, v, e, -, a, b⟩ | ⟨-, a, b⟩
  · exact ⟨a.le, fun m hm => by rw [b m hm]⟩
  · exact ⟨a.le, fun m hm => by rw [b m hm]⟩
  · exact ⟨a.le, b⟩

/-! Where the Jacobian is wrong, the direction may lead upwards. -/

noncomputable def exUp : MFOwner ℝ :=
  ⟨[str! "CO_s + *_s -> CO_g + 2*_s"], netOf [str! "CO_s + *_s -> CO_g + 2*_s"], [(str! "*_s", 1)], [(str! "CO_g", 1)], []⟩

noncomputable def exUpEnv (t : ℝ) : Env ℝ :=
  ⟨[16], [1], [(str! "CO_s", t), (str! "*_s", 1 - ([t] : List ℝ).sum)], [(str! "CO_g", 1)], []⟩

def exUpGain : Term := ⟨1, false, 0, [⟨.p, str! "CO_g", 1⟩, ⟨.theta, str! "*_s", 2⟩]⟩

def exUpLoss : Term := ⟨1, true, 0, [⟨.theta, str! "CO_s", 1⟩, ⟨.theta, str! "*_s", 1⟩]⟩

theorem exUp_function (t : ℝ) : steadyStateFunction exUp ([16], [1]) [t] = .ok [(1 - t) * (1 - 17 * t)] := by
  have h : evalPoly (exUpEnv t) [(true, exUpGain), (false, exUpLoss)] = .ok ((1 - t) * (1 - 17 * t)) := by
    have : ((1 - t) * (1 - 17 * t)) = ([((1 : ℕ) : ℝ) * 1 * ([(1:ℝ) ^ 1, (1 - ([t] : List ℝ).sum) ^ 2]).prod,
        -(((1 : ℕ) : ℝ) * 16 * ([t ^ 1, (1 - ([t] : List ℝ).sum) ^ 1]).prod)]).sum := by
      simp; ring
    rw [this]; rfl
  have e : steadyStateFunction exUp ([16], [1]) [t]
      = [[(true, exUpGain), (false, exUpLoss)]].mapM (evalPoly (exUpEnv t)) := by rfl
  rw [e]
  exact mapM_cons_ok h rfl

theorem exUp_jacobian : analyticalJacobian exUp ([16], [1]) [3 / 4] = .ok [[-33 / 2]] := by
  have e : analyticalJacobian exUp ([16], [1]) [3 / 4]
      = [[(true, exUpGain), (false, exUpLoss)]].mapM (fun q =>
          [str! "CO_s"].mapM fun a => do
            let d ← polyDeriv exUp a q
            evalDerived (exUpEnv (3 / 4)) d) := by rfl
  have hm : (do
            let d ← polyDeriv exUp (str! "CO_s") [(true, exUpGain), (false, exUpLoss)]
            evalDerived (exUpEnv (3 / 4)) d : Py ℝ) = .ok (-33 / 2) := by
    have hp : polyDeriv exUp (str! "CO_s") [(true, exUpGain), (false, exUpLoss)]
        = .ok [(false, [.num 2, .k false 0, .fac ⟨.p, str! "CO_g", 1⟩, .free 1 [str! "CO_s"] 1]),
          (false, [.num 1, .k true 0, .fac ⟨.theta, str! "*_s", 1⟩]), (false, [.k true 0, .fac ⟨.theta, str! "CO_s", 1⟩])] := by
      rfl
    rw [hp]
    have hf : evalPiece (exUpEnv (3 / 4)) (.free 1 [str! "CO_s"] 1) = .ok (1 / 4) := by
      have : evalPiece (exUpEnv (3 / 4)) (.free 1 [str! "CO_s"] 1) = pyPow (1 - ([3 / 4] : List ℝ).sum) 1 := rfl
      rw [this]
      unfold pyPow
      norm_num
    have h1 : ([.num 2, .k false 0, .fac ⟨.p, str! "CO_g", 1⟩, .free 1 [str! "CO_s"] 1] : List (Piece ℝ)).mapM
        (evalPiece (exUpEnv (3 / 4))) = .ok [((2 : ℕ) : ℝ), 1, (1 : ℝ) ^ 1, 1 / 4] :=
      mapM_cons_ok rfl (mapM_cons_ok rfl (mapM_cons_ok rfl (mapM_cons_ok hf rfl)))
    have h2 : ([.num 1, .k true 0, .fac ⟨.theta, str! "*_s", 1⟩] : List (Piece ℝ)).mapM
        (evalPiece (exUpEnv (3 / 4))) = .ok [((1 : ℕ) : ℝ), 16, (1 - ([3 / 4] : List ℝ).sum) ^ 1] := rfl
    have h3 : ([.k true 0, .fac ⟨.theta, str! "CO_s", 1⟩] : List (Piece ℝ)).mapM
        (evalPiece (exUpEnv (3 / 4))) = .ok [(16 : ℝ), (3 / 4) ^ 1] := rfl
    show evalDerived _ _ = _
    unfold evalDerived
    rw [mapM_cons_ok (b := -([((2 : ℕ) : ℝ), 1, (1 : ℝ) ^ 1, 1 / 4].prod))
      (bs := [-([((1 : ℕ) : ℝ), 16, (1 - ([3 / 4] : List ℝ).sum) ^ 1].prod), -([(16 : ℝ), (3 / 4) ^ 1].prod)])
      (by dsimp only; rw [h1]; rfl) (mapM_cons_ok (by dsimp only; rw [h2]; rfl) (mapM_cons_ok (by dsimp only; rw [h3]; rfl) rfl))]
    show Except.ok _ = Except.ok _
    norm_num
  rw [e]
  exact mapM_cons_ok (mapM_cons_ok hm rfl) rfl

theorem lineSearch_never (p : NewtonProblem (List ℝ) ℝ (List ℝ) (List (List ℝ))) (x0 s : List ℝ) (fxnorm : ℝ)
    (hmove : ∀ l, 0 < l → p.move x0 l s ≠ x0)
    (hup : ∀ l, 0 < l → l ≤ 1 → ∃ fx, p.f (p.move x0 l s) = .ok fx ∧ ¬ p.norm fx < fxnorm) :
    ∀ (m : Nat) (l : ℝ) (fx : List ℝ), 0 < l → l ≤ 1 → lineSearch p (· / 2) x0 s fxnorm m l fx = none := by
  intro m
  induction m with
  | zero => intro l fx _ _; rfl
  | succ m ih =>
    intro l fx h0 h1
    obtain ⟨fx1, e1, e2⟩ := hup l h0 h1
    unfold lineSearch
    rw [if_neg (hmove l h0), e1]
    dsimp only
    rw [if_neg e2]
    exact ih _ _ (by positivity) (by linarith)

/-- For `CO_s + *_s -> CO_g + 2*_s` at three quarters coverage, where the entry of the Jacobian has the wrong sign, the
norm grows in the direction found, however short the step: the halving never ends and nothing is given. (With rounding
it ends when the step is too short to be seen, and the iterator reports a stationary point.) -/
theorem C97_never_ends_refuted :
    Ready exUp (fun _ => 1) (fun _ => 1) (fun _ => 0) ∧ SolvesRight exactSolve ∧
    steadyStateFunction exUp ([16], [1]) [3 / 4] = .ok [-47 / 16] ∧ (∃ s, exactSolve [[-33 / 2]] [-47 / 16] = .ok s) ∧
    analyticalJacobian exUp ([16], [1]) [3 / 4] = .ok [[-33 / 2]] ∧
    ∀ m n, mdNewton (ssProblem exUp ([16], [1]) exactSolve euclid) 1 (· / 2) m n [3 / 4] = ([], .running) := by
  have hf : steadyStateFunction exUp ([16], [1]) [3 / 4] = .ok [-47 / 16] := by
    rw [exUp_function]; norm_num
  have hs : ∃ s, exactSolve [[-33 / 2]] [-47 / 16] = .ok s := by
    unfold exactSolve
    rw [dif_pos ⟨[-47 / 264], by simp, by simp [matVec]; norm_num⟩]
    exact ⟨_, rfl⟩
  refine ⟨⟨rfl, ?_, ?_, ?_⟩, exactSolve_right, hf, hs, exUp_jacobian, fun m n => ?_⟩
  · intro s hs
    have : exUp.net.sites = [str! "*_s"] := by rfl
    rw [this, List.mem_singleton] at hs
    subst hs; rfl
  · intro g hg
    have : exUp.net.gas = [str! "CO_g"] := by rfl
    rw [this, List.mem_singleton] at hg
    subst hg; rfl
  · intro g hg; exact absurd hg (by show g ∉ ([] : List Str); simp)
  · obtain ⟨s, hs⟩ := hs
    obtain ⟨h1, h2⟩ := exactSolve_right _ _ _ hs
    obtain ⟨d, rfl⟩ : ∃ d, s = [d] := List.length_eq_one_iff.mp h1
    have hd : d = -47 / 264 := by
      simp [matVec] at h2
      linarith
    subst hd
    unfold mdNewton
    rw [show (ssProblem exUp ([16], [1]) exactSolve euclid).f [3 / 4] = .ok [-47 / 16] from hf]
    dsimp only
    cases n with
    | zero => rfl
    | succ n =>
      unfold mdLoop
      rw [show (ssProblem exUp ([16], [1]) exactSolve euclid).J [3 / 4] = _ from exUp_jacobian]
      dsimp only
      rw [show (ssProblem exUp ([16], [1]) exactSolve euclid).solve [[-33 / 2]] [-47 / 16] = _ from hs]
      dsimp only
      rw [lineSearch_never _ _ _ _ ?_ ?_ m 1 _ one_pos le_rfl]
      · intro l hl
        show [3 / 4 + l * (-47 / 264)] ≠ [3 / 4]
        intro e
        have : 3 / 4 + l * (-47 / 264) = (3 / 4 : ℝ) := by simpa using e
        linarith
      · intro l h0 h1
        refine ⟨_, exUp_function (3 / 4 + l * (-47 / 264)), ?_⟩
        show ¬ euclid _ < euclid _
        have hn : ∀ v : ℝ, euclid [v] = |v| := by
          intro v; unfold euclid; simp [Real.sqrt_sq_eq_abs]
        rw [hn, hn, not_lt]
        rw [abs_of_nonpos (by norm_num : (-47 / 16 : ℝ) ≤ 0), le_abs]
        right
        nlinarith
end Verif
