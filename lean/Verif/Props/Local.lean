import Verif.Props.Descent
import Verif.Props.SteadyLoop
import Mathlib.Analysis.Calculus.ContDiff.RCLike
import Mathlib.Analysis.Normed.Module.FiniteDimension
namespace Verif
open Dict
open scoped Topology Filter

/-! ## Newton steps close to a regular root -/

theorem euclid_le {n : Nat} (v : Fin n → ℝ) : euclid (List.ofFn v) ≤ (n + 1) * ‖v‖ := by
  unfold euclid
  rw [List.map_ofFn, List.sum_ofFn]
  apply Real.sqrt_le_iff.mpr
  refine ⟨by positivity, ?_⟩
  calc ∑ i, ((fun x => x ^ 2) ∘ v) i ≤ ∑ _i : Fin n, ‖v‖ ^ 2 := by
        apply Finset.sum_le_sum
        intro i _
        show v i ^ 2 ≤ ‖v‖ ^ 2
        have : |v i| ≤ ‖v‖ := norm_le_pi_norm v i
        exact sq_le_sq' (by linarith [neg_abs_le (v i)]) (by linarith [le_abs_self (v i)])
    _ = n * ‖v‖ ^ 2 := by simp
    _ ≤ ((n + 1) * ‖v‖) ^ 2 := by
        rw [mul_pow]
        apply mul_le_mul_of_nonneg_right _ (sq_nonneg _)
        nlinarith [Nat.cast_nonneg (α := ℝ) n]

theorem le_euclid {n : Nat} (v : Fin n → ℝ) : ‖v‖ ≤ euclid (List.ofFn v) := by
  unfold euclid
  rw [pi_norm_le_iff_of_nonneg (Real.sqrt_nonneg _)]
  intro i
  rw [List.map_ofFn, List.sum_ofFn]
  apply Real.le_sqrt_of_sq_le
  rw [Real.norm_eq_abs, sq_abs]
  exact Finset.single_le_sum (f := fun i => v i ^ 2) (fun i _ => sq_nonneg _) (Finset.mem_univ i)

/-- Close to a root with an injective derivative a full Newton step halves the distance to it and the norm of the
function gets smaller. -/
theorem newton_close {n : Nat} {F : (Fin n → ℝ) → Fin n → ℝ} (hF : ContDiff ℝ 1 F) {x : Fin n → ℝ} (hx : F x = 0)
    (hinj : ∀ d, fderiv ℝ F x d = 0 → d = 0) :
    ∃ δ > 0, ∀ y, ‖y - x‖ < δ → (∀ d, fderiv ℝ F y d = 0 → d = 0) ∧
      ∀ d, fderiv ℝ F y d = -F y → ‖y + d - x‖ ≤ ‖y - x‖ / 2 ∧ (F y ≠ 0 → euclid (List.ofFn (F (y + d))) < euclid (List.ofFn (F y))) := by
  -- a lower bound of the derivative
  obtain ⟨c, hc0, hc⟩ : ∃ c > 0, ∀ d, c * ‖d‖ ≤ ‖fderiv ℝ F x d‖ := by
    have hi : Function.Injective (fderiv ℝ F x) := by
      rw [injective_iff_map_eq_zero]; exact hinj
    obtain ⟨K, hK, ha⟩ := (LinearMap.injective_iff_antilipschitz (fderiv ℝ F x).toLinearMap).mp hi
    refine ⟨(K : ℝ)⁻¹, by positivity, fun d => ?_⟩
    have := ha.le_mul_dist d 0
    rw [dist_zero_right] at this
    simp only [map_zero, dist_zero_right] at this
    rw [inv_mul_le_iff₀ (by positivity)]
    exact this
  set L := ‖fderiv ℝ F x‖ with hL
  have hL0 : 0 ≤ L := norm_nonneg _
  -- how close things have to be
  obtain ⟨ε, he0, he1, he2⟩ : ∃ ε : ℝ, 0 < ε ∧ ε ≤ c / 8 ∧ (n + 1) * ((L + ε) * (4 * ε / c)) < c / 2 := by
    refine ⟨min (c / 8) (c ^ 2 / (16 * (n + 1) * (L + c))), by positivity, min_le_left _ _, ?_⟩
    set e := min (c / 8) (c ^ 2 / (16 * (n + 1) * (L + c))) with hedef
    have e1 : e ≤ c / 8 := min_le_left _ _
    have e2 : e ≤ c ^ 2 / (16 * (n + 1) * (L + c)) := min_le_right _ _
    have e0 : 0 < e := by rw [hedef]; positivity
    have h1 : (L + e) ≤ L + c := by linarith
    have h2 : 4 * e / c ≤ c / (4 * (n + 1) * (L + c)) := by
      rw [div_le_div_iff₀ hc0 (by positivity)]
      rw [le_div_iff₀ (by positivity)] at e2
      nlinarith
    calc ((n : ℝ) + 1) * ((L + e) * (4 * e / c)) ≤ (n + 1) * ((L + c) * (c / (4 * (n + 1) * (L + c)))) := by
          apply mul_le_mul_of_nonneg_left _ (by positivity)
          apply mul_le_mul h1 h2 (by positivity) (by positivity)
      _ = c / 4 := by
          have : ((n : ℝ) + 1) ≠ 0 := by positivity
          have : L + c ≠ 0 := by positivity
          field_simp
      _ < c / 2 := by linarith
  have hdiff := hF.differentiable one_ne_zero
  have hs : HasStrictFDerivAt F (fderiv ℝ F x) x := hF.contDiffAt.hasStrictFDerivAt one_ne_zero
  obtain ⟨δ1, hδ1, h1⟩ : ∃ δ > 0, ∀ y, ‖y - x‖ < δ → ‖F y - fderiv ℝ F x (y - x)‖ ≤ ε * ‖y - x‖ := by
    have := hs.hasFDerivAt.isLittleO.def he0
    obtain ⟨δ, hδ, h⟩ := Metric.eventually_nhds_iff.mp this
    refine ⟨δ, hδ, fun y hy => ?_⟩
    have := h (y := y) (by rw [dist_eq_norm]; exact hy)
    rw [hx, sub_zero] at this
    exact this
  obtain ⟨δ2, hδ2, h2⟩ : ∃ δ > 0, ∀ y, ‖y - x‖ < δ → ‖fderiv ℝ F y - fderiv ℝ F x‖ ≤ ε := by
    have hcont := (hF.continuous_fderiv one_ne_zero).continuousAt (x := x)
    obtain ⟨δ, hδ, h⟩ := Metric.continuousAt_iff.mp hcont ε he0
    refine ⟨δ, hδ, fun y hy => ?_⟩
    have := h (x := y) (by rw [dist_eq_norm]; exact hy)
    rw [dist_eq_norm] at this
    exact this.le
  refine ⟨min δ1 δ2, lt_min hδ1 hδ2, fun y hy => ?_⟩
  have hy1 := h1 y (lt_of_lt_of_le hy (min_le_left _ _))
  have hy2 := h2 y (lt_of_lt_of_le hy (min_le_right _ _))
  have hlow : ∀ d, c / 2 * ‖d‖ ≤ ‖fderiv ℝ F y d‖ := by
    intro d
    have e1 : ‖(fderiv ℝ F y - fderiv ℝ F x) d‖ ≤ ε * ‖d‖ :=
      (ContinuousLinearMap.le_opNorm _ _).trans (mul_le_mul_of_nonneg_right hy2 (norm_nonneg _))
    have e2 := hc d
    have e3 : fderiv ℝ F x d = fderiv ℝ F y d - (fderiv ℝ F y - fderiv ℝ F x) d := by simp
    rw [e3] at e2
    have e4 := norm_sub_le (fderiv ℝ F y d) ((fderiv ℝ F y - fderiv ℝ F x) d)
    nlinarith [norm_nonneg d]
  refine ⟨fun d hd => ?_, fun d hd => ?_⟩
  · have := hlow d
    rw [hd, norm_zero] at this
    have : ‖d‖ ≤ 0 := by nlinarith [norm_nonneg d]
    exact norm_le_zero_iff.mp this
  have hstep : ‖y + d - x‖ ≤ 4 * ε / c * ‖y - x‖ := by
    have e1 := hlow (y + d - x)
    have e2 : fderiv ℝ F y (y + d - x) = (fderiv ℝ F y - fderiv ℝ F x) (y - x) - (F y - fderiv ℝ F x (y - x)) := by
      rw [show y + d - x = (y - x) + d by abel, map_add, hd, sub_apply]
      abel
    rw [e2] at e1
    have e3 := norm_sub_le ((fderiv ℝ F y - fderiv ℝ F x) (y - x)) (F y - fderiv ℝ F x (y - x))
    have e4 : ‖(fderiv ℝ F y - fderiv ℝ F x) (y - x)‖ ≤ ε * ‖y - x‖ :=
      (ContinuousLinearMap.le_opNorm _ _).trans (mul_le_mul_of_nonneg_right hy2 (norm_nonneg _))
    rw [div_mul_eq_mul_div, le_div_iff₀ hc0]
    nlinarith
  have hhalf : ‖y + d - x‖ ≤ ‖y - x‖ / 2 := by
    refine hstep.trans ?_
    have : 4 * ε / c ≤ 1 / 2 := by
      rw [div_le_div_iff₀ hc0 (by norm_num)]; linarith
    nlinarith [norm_nonneg (y - x)]
  refine ⟨hhalf, fun hne => ?_⟩
  have hyx : 0 < ‖y - x‖ := by
    rw [norm_pos_iff]
    intro e
    exact hne (by rw [sub_eq_zero.mp e, hx])
  have hfar : c / 2 * ‖y - x‖ ≤ ‖F y‖ := by
    have e1 := hc (y - x)
    have e2 : fderiv ℝ F x (y - x) = F y - (F y - fderiv ℝ F x (y - x)) := by simp
    rw [e2] at e1
    have e3 := norm_sub_le (F y) (F y - fderiv ℝ F x (y - x))
    nlinarith
  have hz := h1 (y + d) (by
    have := lt_of_lt_of_le hy (min_le_left δ1 δ2)
    linarith)
  have hnear : ‖F (y + d)‖ ≤ (L + ε) * (4 * ε / c) * ‖y - x‖ := by
    have e1 : ‖fderiv ℝ F x (y + d - x)‖ ≤ L * ‖y + d - x‖ := ContinuousLinearMap.le_opNorm _ _
    have e2 : F (y + d) = (F (y + d) - fderiv ℝ F x (y + d - x)) + fderiv ℝ F x (y + d - x) := by simp
    have e3 : ‖F (y + d)‖ ≤ (L + ε) * ‖y + d - x‖ := by
      rw [e2]
      refine (norm_add_le _ _).trans ?_
      linarith
    refine e3.trans ?_
    rw [mul_assoc]
    exact mul_le_mul_of_nonneg_left hstep (by positivity)
  calc euclid (List.ofFn (F (y + d))) ≤ (n + 1) * ‖F (y + d)‖ := euclid_le _
    _ ≤ (n + 1) * ((L + ε) * (4 * ε / c) * ‖y - x‖) := mul_le_mul_of_nonneg_left hnear (by positivity)
    _ = (n + 1) * ((L + ε) * (4 * ε / c)) * ‖y - x‖ := by ring
    _ < c / 2 * ‖y - x‖ := mul_lt_mul_of_pos_right he2 hyx
    _ ≤ ‖F y‖ := hfar
    _ ≤ euclid (List.ofFn (F y)) := le_euclid _

/-! ## The search from a guess close to a steady state -/

section
variable {o : MFOwner ℝ} {total P C : Str → ℝ}

/-- What is moreover used of the linear solver: it returns something when there is exactly one solution. -/
def SolvesRegular (solve : List (List ℝ) → List ℝ → Py (List ℝ)) : Prop :=
  ∀ J fx, (∃ s, s.length = fx.length ∧ matVec J s = fx.map (- ·) ∧ ∀ s', s'.length = fx.length → matVec J s' = fx.map (- ·) → s' = s) →
    ∃ s, solve J fx = .ok s

/-- Items of the iterator close to the root: they come closer and closer. -/
theorem mdLoop_close (h : Ready o total P C) (hc : ∀ states ∈ o.net.rxns, RateClean states)
    (hsim : ∀ states ∈ o.net.rxns, ∀ fs, (states.head? = some fs ∨ states.getLast? = some fs) → SimpleState fs)
    (kf kr : List ℝ) (hkf : kf.length = o.rxns.length) (hkr : kr.length = o.rxns.length)
    (hself : ∀ a ∈ o.net.ads, ∀ b ∈ o.net.ads, ∀ s, OnSite b s → ∀ states ∈ o.net.rxns, NoSelfSite a b s states)
    (solve : List (List ℝ) → List ℝ → Py (List ℝ)) (hsolve : SolvesRight solve) (hreg : SolvesRegular solve)
    {F : (Fin o.net.ads.length → ℝ) → Fin o.net.ads.length → ℝ} (hF : ContDiff ℝ 1 F)
    (hFs : ∀ y, steadyStateFunction o (kf, kr) (List.ofFn y) = .ok (List.ofFn (F y)))
    {x : Fin o.net.ads.length → ℝ} {δ : ℝ}
    (hδ : ∀ y, ‖y - x‖ < δ → (∀ d, fderiv ℝ F y d = 0 → d = 0) ∧
      ∀ d, fderiv ℝ F y d = -F y → ‖y + d - x‖ ≤ ‖y - x‖ / 2 ∧ (F y ≠ 0 → euclid (List.ofFn (F (y + d))) < euclid (List.ofFn (F y)))) :
    ∀ (n m : Nat) (y : Fin o.net.ads.length → ℝ), 0 < m → ‖y - x‖ < δ →
      ∃ zs : List (Fin o.net.ads.length → ℝ),
        (zs.map fun z => (⟨List.ofFn z, euclid (List.ofFn (F z)), List.ofFn (F z)⟩ : Yielded (List ℝ) ℝ (List ℝ))) <+:
          (mdLoop (ssProblem o (kf, kr) solve euclid) 1 (· / 2) m n (List.ofFn y) (euclid (List.ofFn (F y))) (List.ofFn (F y))).1 ∧
        (∀ j z, zs[j]? = some z → ‖z - x‖ ≤ (1 / 2) ^ (j + 1) * ‖y - x‖) ∧
        (zs.length = n ∨ F (zs.getLast?.getD y) = 0) := by
  intro n
  induction n with
  | zero => intro m y hm hy; exact ⟨[], List.nil_prefix, by simp, Or.inl rfl⟩
  | succ n ih =>
    intro m y hm hy
    by_cases hz : F y = 0
    · exact ⟨[], List.nil_prefix, by simp, Or.inr (by simpa using hz)⟩
    obtain ⟨hinj, hstep⟩ := hδ y hy
    obtain ⟨J, hJ, hJl, hmv⟩ := jacobian_apply h hc hsim kf kr hkf hkr hself (hF.differentiable one_ne_zero) hFs y
    have hneg : (List.ofFn (F y)).map (- ·) = List.ofFn (-F y) := by rw [List.map_ofFn]; rfl
    -- the solver returns the direction
    obtain ⟨s, hs⟩ : ∃ s, solve J (List.ofFn (F y)) = .ok s := by
      apply hreg
      have hi : Function.Injective (fderiv ℝ F y).toLinearMap := by
        rw [injective_iff_map_eq_zero]; exact hinj
      obtain ⟨d, hd⟩ := (LinearMap.injective_iff_surjective.mp hi) (-F y)
      refine ⟨List.ofFn d, by simp, ?_, ?_⟩
      · rw [hmv, hneg]; exact congrArg List.ofFn hd
      · intro s' hl' hs'
        rw [List.length_ofFn] at hl'
        obtain ⟨d', rfl⟩ := exists_ofFn hl'
        rw [hmv, hneg] at hs'
        have := List.ofFn_injective hs'
        rw [hi ((this : (fderiv ℝ F y).toLinearMap d' = -F y).trans hd.symm)]
    obtain ⟨hsl, hsv⟩ := hsolve _ _ _ hs
    rw [List.length_ofFn] at hsl
    obtain ⟨d, rfl⟩ := exists_ofFn hsl
    rw [hmv, hneg] at hsv
    obtain ⟨hhalf, hnorm⟩ := hstep d (List.ofFn_injective hsv)
    obtain ⟨m', rfl⟩ : ∃ m', m = m' + 1 := ⟨m - 1, by omega⟩
    have hmove : (ssProblem o (kf, kr) solve euclid).move (List.ofFn y) 1 (List.ofFn d) = List.ofFn (y + d) := by
      show (List.ofFn y).zipWith (fun a b => a + 1 * b) (List.ofFn d) = _
      rw [move_ofFn]
      congr 1
      funext j
      rw [one_mul]; rfl
    have hls : lineSearch (ssProblem o (kf, kr) solve euclid) (· / 2) (List.ofFn y) (List.ofFn d) (euclid (List.ofFn (F y))) (m' + 1) 1
        (List.ofFn (F y)) = some (.ok (.accepted (List.ofFn (y + d)) (euclid (List.ofFn (F (y + d)))) (List.ofFn (F (y + d))))) := by
      unfold lineSearch
      rw [hmove, if_neg ?_, show (ssProblem o (kf, kr) solve euclid).f (List.ofFn (y + d)) = .ok (List.ofFn (F (y + d))) from hFs _]
      · dsimp only
        rw [if_pos (show (ssProblem o (kf, kr) solve euclid).norm _ < _ from hnorm hz)]
        rfl
      · intro e
        have e' := List.ofFn_injective e
        have := hnorm hz
        rw [e'] at this
        exact lt_irrefl _ this
    obtain ⟨zs, z1, z2, z3⟩ := ih (m' + 1) (y + d) hm (lt_of_le_of_lt (hhalf.trans (by linarith [norm_nonneg (y - x)])) hy)
    refine ⟨(y + d) :: zs, ?_, ?_, ?_⟩
    · conv_rhs => unfold mdLoop
      rw [show (ssProblem o (kf, kr) solve euclid).J (List.ofFn y) = .ok J from hJ]
      dsimp only
      rw [show (ssProblem o (kf, kr) solve euclid).solve J (List.ofFn (F y)) = _ from hs]
      dsimp only
      rw [hls]
      exact List.cons_prefix_cons.mpr ⟨rfl, z1⟩
    · intro j z hj
      cases j with
      | zero =>
        have : y + d = z := by simpa using hj
        rw [← this]
        refine hhalf.trans (le_of_eq ?_)
        ring
      | succ j =>
        rw [List.getElem?_cons_succ] at hj
        refine (z2 j z hj).trans ?_
        rw [pow_succ (1 / 2 : ℝ) (j + 1), mul_assoc]
        apply mul_le_mul_of_nonneg_left _ (by positivity)
        linarith
    · rcases z3 with z3 | z3
      · exact Or.inl (by simp [z3])
      · refine Or.inr ?_
        rw [List.getLast?_cons]
        simpa using z3

/-- The same for the loop over guesses, in any round. -/
theorem search_finds (o : MFOwner ℝ) (total P C : Str → ℝ) (h : Ready o total P C) (hc : ∀ states ∈ o.net.rxns, RateClean states)
    (hsim : ∀ states ∈ o.net.rxns, ∀ fs, (states.head? = some fs ∨ states.getLast? = some fs) → SimpleState fs)
    (kf kr : List ℝ) (hkf : kf.length = o.rxns.length) (hkr : kr.length = o.rxns.length)
    (hself : ∀ a ∈ o.net.ads, ∀ b ∈ o.net.ads, ∀ s, OnSite b s → ∀ states ∈ o.net.rxns, NoSelfSite a b s states)
    (solve : List (List ℝ) → List ℝ → Py (List ℝ)) (hsolve : SolvesRight solve) (hreg : SolvesRegular solve)
    (hne : o.net.ads ≠ []) (xs : List ℝ) (hl : xs.length = o.net.ads.length) (hpos : ∀ v ∈ xs, 0 < v)
    (fx : List ℝ) (hroot : steadyStateFunction o (kf, kr) xs = .ok fx) (hzero : ∀ v ∈ fx, v = 0)
    (J : List (List ℝ)) (hJ : analyticalJacobian o (kf, kr) xs = .ok J)
    (hinj : ∀ d, d.length = xs.length → (∀ v ∈ matVec J d, v = 0) → ∀ v ∈ d, v = 0)
    (tol η : ℝ) (htol : 0 < tol) (hη : 0 < η) :
    ∃ δ > 0, ∃ N : ℕ, ∀ c, Physical o.net total c → (∀ (i : Nat) (a b : ℝ), c[i]? = some a → xs[i]? = some b → |a - b| < δ) →
      ∀ m n (maxIter : Int) hybrid plugins st fuel outer, 0 < m → N ≤ n → (N : Int) ≤ maxIter →
        ∃ st' x, outerLoop (mdEnv o (kf, kr) (kf, kr) solve euclid m n tol maxIter hybrid plugins false) (fuel + 1) outer c st
          = some (st', .returned x) ∧ x.length = xs.length ∧ ∀ (i : Nat) (a b : ℝ), x[i]? = some a → xs[i]? = some b → |a - b| < η := by
  obtain ⟨F, hF, hFs⟩ := equations_contDiff h hc hsim kf kr hkf hkr
  obtain ⟨x, rfl⟩ := exists_ofFn hl
  rw [hFs] at hroot
  have := Except.ok.inj hroot
  subst this
  have hx : F x = 0 := by
    funext i
    exact hzero _ (List.mem_ofFn.mpr ⟨i, rfl⟩)
  obtain ⟨J', hJ', -, hmv⟩ := jacobian_apply h hc hsim kf kr hkf hkr hself (hF.differentiable one_ne_zero) hFs x
  rw [hJ] at hJ'
  have := Except.ok.inj hJ'
  subst this
  have hinj' : ∀ d, fderiv ℝ F x d = 0 → d = 0 := by
    intro d hd
    have h1 := hinj (List.ofFn d) (by simp) (by
      intro v hv
      rw [hmv, hd] at hv
      obtain ⟨i, rfl⟩ := List.mem_ofFn.mp hv
      rfl)
    funext i
    exact h1 _ (List.mem_ofFn.mpr ⟨i, rfl⟩)
  obtain ⟨δ0, hδ0, hclose⟩ := newton_close hF hx hinj'
  -- the residual is small close to the root
  obtain ⟨ρ, hρ, hsmall⟩ : ∃ ρ > 0, ∀ z, ‖z - x‖ < ρ → euclid (List.ofFn (F z)) < tol := by
    have hcont := hF.continuous.continuousAt (x := x)
    obtain ⟨ρ, hρ, hr⟩ := Metric.continuousAt_iff.mp hcont (tol / (o.net.ads.length + 1)) (by positivity)
    refine ⟨ρ, hρ, fun z hz => ?_⟩
    have h1 := hr (x := z) (by rw [dist_eq_norm]; exact hz)
    rw [hx, dist_zero_right, lt_div_iff₀ (by positivity)] at h1
    refine (euclid_le _).trans_lt ?_
    linarith
  have hn : 0 < o.net.ads.length := List.length_pos_iff.mpr hne
  obtain ⟨μ, hμ, hmin⟩ : ∃ μ > 0, ∀ i, μ ≤ x i := by
    have : Nonempty (Fin o.net.ads.length) := ⟨⟨0, hn⟩⟩
    obtain ⟨i, hi⟩ := Finite.exists_min x
    exact ⟨x i, hpos _ (List.mem_ofFn.mpr ⟨i, rfl⟩), hi⟩
  set δ := min δ0 (min μ η) with hδdef
  have hδ : 0 < δ := lt_min hδ0 (lt_min hμ hη)
  obtain ⟨N, hN⟩ : ∃ N : ℕ, (1 / 2 : ℝ) ^ N * δ < ρ := by
    obtain ⟨N, hN⟩ := exists_pow_lt_of_lt_one (show 0 < ρ / δ by positivity) (show (1 / 2 : ℝ) < 1 by norm_num)
    exact ⟨N, by rwa [lt_div_iff₀ hδ] at hN⟩
  refine ⟨δ, hδ, N + 1, fun c hphys hnear m n maxIter hybrid plugins st fuel outer hm hNn hNi => ?_⟩
  obtain ⟨y, rfl⟩ := exists_ofFn hphys.length
  have hy : ‖y - x‖ < δ := by
    rw [pi_norm_lt_iff hδ]
    intro i
    exact hnear i.1 _ _ (by simp) (by simp)
  have back : ∀ z : Fin o.net.ads.length → ℝ, ‖z - x‖ < δ →
      ∀ (i : Nat) (a b : ℝ), (List.ofFn z)[i]? = some a → (List.ofFn x)[i]? = some b → |a - b| < η := by
    intro z hz i a b ha hb
    rw [List.getElem?_ofFn] at ha hb
    split at ha
    · rename_i hi
      rw [dif_pos hi] at hb
      cases ha; cases hb
      have := (pi_norm_lt_iff hδ).mp hz ⟨i, hi⟩
      exact this.trans_le ((min_le_right _ _).trans (min_le_right _ _))
    · cases ha
  -- residuals exist and are below the norm
  have hres : ∀ z, ∃ r, getResidual o (kf, kr) (List.ofFn z) = .ok r ∧ 0 ≤ r ∧ r ≤ euclid (List.ofFn (F z)) ∧ (F z = 0 → r = 0) := by
    intro z
    obtain ⟨r, r1, r2, -, ⟨d, hd, r3⟩, r4, -⟩ := C30_residual o (kf, kr) _ _ (hFs z) (by
      intro e
      have := congrArg List.length e
      rw [List.length_ofFn] at this
      exact hn.ne' this)
    refine ⟨r, r1, r2, ?_, fun hz => r4.mpr ?_⟩
    · obtain ⟨i, rfl⟩ := List.mem_ofFn.mp hd
      rw [← r3]
      exact (norm_le_pi_norm (F z) i).trans (le_euclid _)
    · rw [hz]
      intro v hv
      obtain ⟨i, rfl⟩ := List.mem_ofFn.mp hv
      rfl
  set env := mdEnv o (kf, kr) (kf, kr) solve euclid m n tol maxIter hybrid plugins false with henv
  obtain ⟨found1, found2⟩ := outerLoop_found env fuel outer (List.ofFn y) st
  obtain ⟨r, hr1, hr2, hr3, hr4⟩ := hres y
  by_cases hgood : GoodGuess env (List.ofFn y)
  · obtain ⟨st', hst⟩ := found1 ⟨hgood, by
      refine ⟨if r < euclid (List.ofFn (F y)) then r else euclid (List.ofFn (F y)), ?_⟩
      show (do
        let fx ← steadyStateFunction o (kf, kr) (List.ofFn y)
        let r ← getResidual o (kf, kr) (List.ofFn y)
        pure (if r < euclid fx then r else euclid fx) : Py ℝ) = _
      rw [hFs, hr1]
      rfl⟩
    exact ⟨st', _, hst, by simp, back y hy⟩
  -- the iterator
  obtain ⟨zs, z1, z2, z3⟩ := mdLoop_close h hc hsim kf kr hkf hkr hself solve hsolve hreg hF hFs (x := x) (δ := δ0) hclose n m y hm
    (hy.trans_le (min_le_left _ _))
  have hFy : F y ≠ 0 := by
    intro e
    exact hgood ⟨r, hr1, by rw [hr4 e]; exact htol.le, rfl⟩
  have hzs : zs ≠ [] := by
    rintro rfl
    rcases z3 with z3 | z3
    · rw [List.length_nil] at z3; omega
    · exact hFy (by simpa using z3)
  have hbound : ∀ (j : Nat) z, zs[j]? = some z → ‖z - x‖ < δ := by
    intro j z hj
    refine (z2 j z hj).trans_lt (lt_of_le_of_lt ?_ hy)
    have : (1 / 2 : ℝ) ^ (j + 1) ≤ 1 := pow_le_one₀ (by norm_num) (by norm_num)
    nlinarith [norm_nonneg (y - x)]
  -- the first item within tolerance
  have hex : ∃ j, j ≤ N ∧ ∃ z, zs[j]? = some z ∧ euclid (List.ofFn (F z)) < tol := by
    by_cases hlen : N < zs.length
    · refine ⟨N, le_refl _, zs[N], List.getElem?_eq_getElem hlen, hsmall _ ?_⟩
      refine (z2 N _ (List.getElem?_eq_getElem hlen)).trans_lt (lt_of_le_of_lt ?_ hN)
      rw [pow_succ, mul_assoc]
      apply mul_le_mul_of_nonneg_left _ (by positivity)
      nlinarith [norm_nonneg (y - x)]
    · rcases z3 with z3 | z3
      · omega
      · refine ⟨zs.length - 1, by omega, zs.getLast hzs, ?_, ?_⟩
        · rw [← List.getLast?_eq_getElem?, List.getLast?_eq_some_getLast hzs]
        · rw [List.getLast?_eq_some_getLast hzs, Option.getD_some] at z3
          rw [z3]
          refine (euclid_le _).trans_lt ?_
          rw [norm_zero, mul_zero]; exact htol
  classical
  let Q : Nat → Prop := fun j => j ≤ N ∧ ∃ z, zs[j]? = some z ∧ euclid (List.ofFn (F z)) < tol
  have hexQ : ∃ j, Q j := hex
  obtain ⟨hjN, z, hjz, hjt⟩ := Nat.find_spec hexQ
  have hleast : ∀ i, i < Nat.find hexQ → ¬ Q i := fun i hi => Nat.find_min hexQ hi
  generalize Nat.find hexQ = j at hjN hjz hleast
  have hitems : ∀ (i : Nat) w, zs[i]? = some w → (env.newton (List.ofFn y)).1[i]? = some (List.ofFn w, euclid (List.ofFn (F w))) := by
    intro i w hw
    have hpre := z1.map (fun y : Yielded (List ℝ) ℝ (List ℝ) => (y.x, y.norm))
    rw [List.map_map] at hpre
    have e : (env.newton (List.ofFn y)).1 = (mdLoop (ssProblem o (kf, kr) solve euclid) 1 (· / 2) m n (List.ofFn y) (euclid (List.ofFn (F y))) (List.ofFn (F y))).1.map
        (fun y => (y.x, y.norm)) := by
      show (mdNewton (ssProblem o (kf, kr) solve euclid) 1 (· / 2) m n (List.ofFn y)).1.map _ = _
      unfold mdNewton
      rw [show (ssProblem o (kf, kr) solve euclid).f (List.ofFn y) = .ok (List.ofFn (F y)) from hFs y]
      rfl
    rw [e]
    have hilt : i < zs.length := (List.getElem?_eq_some_iff.mp hw).1
    obtain ⟨rest, hrest⟩ := hpre
    rw [← hrest, List.getElem?_append_left (by simpa using hilt), List.getElem?_map, hw]
    rfl
  obtain ⟨rz, rz1, rz2, rz3, -⟩ := hres z
  have hroot : IsRoot env j (List.ofFn z, euclid (List.ofFn (F z))) := by
    refine ⟨rz, rz1, ?_, hjt, lt_of_le_of_lt rz3 hjt, ?_, ?_⟩
    · show ((j + 1 : Nat) : Int) ≤ maxIter
      push_cast at hNi ⊢
      omega
    · intro e
      have := congrArg List.length e
      rw [List.length_ofFn] at this
      exact hn.ne' this
    · intro v hv
      obtain ⟨i, rfl⟩ := List.mem_ofFn.mp hv
      have h1 := (pi_norm_lt_iff hδ).mp (hbound j z hjz) i
      have h2 : |z i - x i| < μ := h1.trans_le ((min_le_right _ _).trans (min_le_left _ _))
      have h3 := hmin i
      rw [abs_lt] at h2
      linarith
  have hstop : StopsAfter env 0 (env.newton (List.ofFn y)).1 j := by
    refine ⟨?_, ?_, ?_⟩
    · intro i it hi hit
      have hilt : i < zs.length := lt_trans hi (List.getElem?_eq_some_iff.mp hjz).1
      have hw := List.getElem?_eq_getElem hilt
      rw [hitems i _ hw] at hit
      cases hit
      obtain ⟨rw', rw1, -, -, -⟩ := hres zs[i]
      refine ⟨rw', rw1, ?_, fun ⟨e1, _⟩ => hleast i hi ⟨by omega, _, hw, e1⟩⟩
      show ((0 + i + 1 : Nat) : Int) ≤ maxIter
      push_cast at hNi ⊢
      omega
    · exact (List.getElem?_eq_some_iff.mp (hitems j z hjz)).1.le
    · intro it hit hgo
      rw [hitems j z hjz] at hit
      cases hit
      obtain ⟨r', h1, -, h2⟩ := hgo
      have h1' : getResidual o (kf, kr) (List.ofFn z) = .ok r' := h1
      rw [rz1] at h1'
      cases h1'
      exact h2 ⟨hjt, lt_of_le_of_lt rz3 hjt⟩
  obtain ⟨st', hst⟩ := found2 r j _ hr1 hgood hstop (hitems j z hjz) hroot
  exact ⟨st', _, hst, by simp, back z (hbound j z hjz)⟩

/-- C97: the default search finds a regular steady state in which all adsorbates are present from every physical guess
that is close enough, whatever the hybrid method, if enough steps are allowed; and what it returns is as close as one
wants. Partial: for networks where the analytical Jacobian is right (C28), and without rounding. -/
theorem C97_finds_partial (o : MFOwner ℝ) (total P C : Str → ℝ) (h : Ready o total P C) (hc : ∀ states ∈ o.net.rxns, RateClean states)
    (hsim : ∀ states ∈ o.net.rxns, ∀ fs, (states.head? = some fs ∨ states.getLast? = some fs) → SimpleState fs)
    (kf kr : List ℝ) (hkf : kf.length = o.rxns.length) (hkr : kr.length = o.rxns.length)
    (hself : ∀ a ∈ o.net.ads, ∀ b ∈ o.net.ads, ∀ s, OnSite b s → ∀ states ∈ o.net.rxns, NoSelfSite a b s states)
    (solve : List (List ℝ) → List ℝ → Py (List ℝ)) (hsolve : SolvesRight solve) (hreg : SolvesRegular solve)
    (hne : o.net.ads ≠ []) (xs : List ℝ) (hl : xs.length = o.net.ads.length) (hpos : ∀ v ∈ xs, 0 < v)
    (fx : List ℝ) (hroot : steadyStateFunction o (kf, kr) xs = .ok fx) (hzero : ∀ v ∈ fx, v = 0)
    (J : List (List ℝ)) (hJ : analyticalJacobian o (kf, kr) xs = .ok J)
    (hinj : ∀ d, d.length = xs.length → (∀ v ∈ matVec J d, v = 0) → ∀ v ∈ d, v = 0)
    (tol η : ℝ) (htol : 0 < tol) (hη : 0 < η) :
    ∃ δ > 0, ∃ N : ℕ, ∀ c, Physical o.net total c → (∀ (i : Nat) (a b : ℝ), c[i]? = some a → xs[i]? = some b → |a - b| < δ) →
      ∀ m n (maxIter : Int) hybrid plugins st fuel, 0 < m → N ≤ n → (N : Int) ≤ maxIter →
        ∃ st' x, getSteady (mdEnv o (kf, kr) (kf, kr) solve euclid m n tol maxIter hybrid plugins false) (constrainCoverages o) (fuel + 1) (some c) st
          = some (st', .returned x) ∧ x.length = xs.length ∧ ∀ (i : Nat) (a b : ℝ), x[i]? = some a → xs[i]? = some b → |a - b| < η := by
  obtain ⟨δ, hδ, N, hN⟩ := search_finds o total P C h hc hsim kf kr hkf hkr hself solve hsolve hreg hne xs hl hpos fx hroot hzero J hJ hinj
    tol η htol hη
  refine ⟨δ, hδ, N, fun c hphys hnear m n maxIter hybrid plugins st fuel hm hNn hNi => ?_⟩
  rw [getSteady_some _ (C24_physical_unchanged o total P C h c hphys)]
  exact hN c hphys hnear m n maxIter hybrid plugins _ fuel 1 hm hNn hNi

end

theorem exactSolve_regular : SolvesRegular exactSolve := by
  rintro J fx ⟨s, h1, h2, -⟩
  have hs : ∃ s : List ℝ, s.length = fx.length ∧ matVec J s = fx.map (- ·) := ⟨s, h1, h2⟩
  exact ⟨hs.choose, by unfold exactSolve; rw [dif_pos hs]⟩

/-! A concrete case: adsorption in equilibrium at half coverage. -/

noncomputable def exHalf : MFOwner ℝ :=
  ⟨[str! "CO_g + *_s -> CO_s"], netOf [str! "CO_g + *_s -> CO_s"], [(str! "*_s", 1)], [(str! "CO_g", 1)], []⟩

noncomputable def exHalfEnv (t : ℝ) : Env ℝ :=
  ⟨[1], [1], [(str! "CO_s", t), (str! "*_s", 1 - ([t] : List ℝ).sum)], [(str! "CO_g", 1)], []⟩

def exHalfGain : Term := ⟨1, true, 0, [⟨.p, str! "CO_g", 1⟩, ⟨.theta, str! "*_s", 1⟩]⟩

def exHalfLoss : Term := ⟨1, false, 0, [⟨.theta, str! "CO_s", 1⟩]⟩

theorem exHalf_ready : Ready exHalf (fun _ => 1) (fun _ => 1) (fun _ => 0) := by
  refine ⟨rfl, ?_, ?_, ?_⟩
  · intro s hs
    have : exHalf.net.sites = [str! "*_s"] := by rfl
    rw [this, List.mem_singleton] at hs
    subst hs; rfl
  · intro g hg
    have : exHalf.net.gas = [str! "CO_g"] := by rfl
    rw [this, List.mem_singleton] at hg
    subst hg; rfl
  · intro g hg; exact absurd hg (by show g ∉ ([] : List Str); simp)

theorem exHalf_clean : ∀ states ∈ exHalf.net.rxns, RateClean states :=
  fun st hst => rateClean_of ((by decide : ∀ st ∈ exHalf.net.rxns, rateCleanB st = true) st hst)

theorem exHalf_simple : ∀ states ∈ exHalf.net.rxns, ∀ fs, (states.head? = some fs ∨ states.getLast? = some fs) →
    SimpleState fs := by
  have h : ∀ states ∈ exHalf.net.rxns, ∀ fs ∈ states, simpleB fs = true := by decide
  intro st hst fs hfs
  have := h st hst fs (by
    rcases hfs with e | e
    · exact List.mem_of_mem_head? e
    · exact List.mem_of_mem_getLast? e)
  unfold simpleB at this
  simpa [SimpleState, List.all_eq_true] using this

theorem exHalf_self : ∀ a ∈ exHalf.net.ads, ∀ b ∈ exHalf.net.ads, ∀ s, OnSite b s →
    ∀ states ∈ exHalf.net.rxns, NoSelfSite a b s states := by
  intro a ha b hb s hon
  obtain ⟨s', hs', hon'⟩ := ads_onSite exHalf_ready.parse hb
  have e := onSite_unique hon hon'
  have : exHalf.net.sites = [str! "*_s"] := by decide
  rw [this, List.mem_singleton] at hs'
  subst hs'
  subst e
  have h : ∀ b ∈ exHalf.net.ads, ∀ states ∈ exHalf.net.rxns, ∀ fs ∈ states,
      (fs.any (fun f => decide (f.speciesSite = b)) && fs.any (fun f => decide (f.speciesSite = str! "*_s"))) = false := by
    decide
  have key : ∀ states ∈ exHalf.net.rxns, ∀ fs ∈ states, ¬ BothIn b (str! "*_s") fs := by
    rintro st hst fs hfs ⟨⟨f, hf, e1⟩, g, hg, e2⟩
    have := h b hb st hst fs hfs
    rw [Bool.and_eq_false_iff] at this
    rcases this with h | h
    · rw [List.any_eq_false] at h
      exact h f hf (by simpa using e1)
    · rw [List.any_eq_false] at h
      exact h g hg (by simpa using e2)
  intro st hst
  exact ⟨fun is h _ => key st hst is (List.mem_of_mem_head? h),
    fun is fs _ h _ _ => key st hst fs (List.mem_of_mem_getLast? h)⟩

theorem exHalf_function : steadyStateFunction exHalf ([1], [1]) [1 / 2] = .ok [0] := by
  have h : evalPoly (exHalfEnv (1 / 2)) [(true, exHalfGain), (false, exHalfLoss)] = .ok 0 := by
    have : (0 : ℝ) = ([((1 : ℕ) : ℝ) * 1 * ([(1:ℝ) ^ 1, (1 - ([1 / 2] : List ℝ).sum) ^ 1]).prod,
        -(((1 : ℕ) : ℝ) * 1 * ([(1 / 2 : ℝ) ^ 1]).prod)]).sum := by
      norm_num
    rw [this]; rfl
  have e : steadyStateFunction exHalf ([1], [1]) [1 / 2]
      = [[(true, exHalfGain), (false, exHalfLoss)]].mapM (evalPoly (exHalfEnv (1 / 2))) := by rfl
  rw [e]
  exact mapM_cons_ok h rfl

theorem exHalf_jacobian : analyticalJacobian exHalf ([1], [1]) [1 / 2] = .ok [[-2]] := by
  have e : analyticalJacobian exHalf ([1], [1]) [1 / 2]
      = [[(true, exHalfGain), (false, exHalfLoss)]].mapM (fun q =>
          [str! "CO_s"].mapM fun a => do
            let d ← polyDeriv exHalf a q
            evalDerived (exHalfEnv (1 / 2)) d) := by rfl
  have hm : (do
            let d ← polyDeriv exHalf (str! "CO_s") [(true, exHalfGain), (false, exHalfLoss)]
            evalDerived (exHalfEnv (1 / 2)) d : Py ℝ) = .ok (-2) := by
    have hp : polyDeriv exHalf (str! "CO_s") [(true, exHalfGain), (false, exHalfLoss)]
        = .ok [(false, [.k true 0, .fac ⟨.p, str! "CO_g", 1⟩]), (false, [.k false 0])] := by
      rfl
    rw [hp]
    have : (-2 : ℝ) = [-([(1 : ℝ), 1 ^ 1].prod), -([(1 : ℝ)].prod)].sum := by norm_num
    rw [this]
    rfl
  rw [e]
  exact mapM_cons_ok (mapM_cons_ok hm rfl) rfl

/-- With a tolerance of 1e-8 and the default method, guesses close to half coverage lead to it. -/
example : ∃ δ > 0, ∃ N : ℕ, ∀ t : ℝ, 0 ≤ t → t ≤ 1 → |t - 1 / 2| < δ → ∀ plugins st, ∃ st' x,
    getSteady (mdEnv exHalf ([1], [1]) ([1], [1]) exactSolve euclid 60 (N + 1) (1 / 10 ^ 8) (N + 1) none plugins false) (constrainCoverages exHalf)
      1 (some [t]) st = some (st', .returned [x]) ∧ |x - 1 / 2| < 1 / 1000 := by
  obtain ⟨δ, hδ, N, h⟩ := C97_finds_partial exHalf _ _ _ exHalf_ready exHalf_clean exHalf_simple [1] [1] rfl rfl exHalf_self exactSolve
    exactSolve_right exactSolve_regular (by decide) [1 / 2] rfl (by simp) [0] exHalf_function (by simp) [[-2]] exHalf_jacobian
    (by
      intro d hd hv
      obtain ⟨d, rfl⟩ : ∃ e, d = [e] := List.length_eq_one_iff.mp hd
      simpa [matVec] using hv) (1 / 10 ^ 8) (1 / 1000) (by norm_num) (by norm_num)
  refine ⟨δ, hδ, N, fun t h0 h1 ht plugins st => ?_⟩
  have hphys : Physical exHalf.net (fun _ => (1 : ℝ)) [t] := by
    refine ⟨rfl, by simpa using ⟨h0, h1⟩, ?_⟩
    intro s hs
    have : exHalf.net.sites = [str! "*_s"] := by rfl
    rw [this, List.mem_singleton] at hs
    subst hs
    have : siteSum exHalf.net [t] (str! "*_s") = [t].sum := rfl
    rw [this]
    simpa using h1
  have hnear : ∀ (i : Nat) (a b : ℝ), ([t] : List ℝ)[i]? = some a → ([1 / 2] : List ℝ)[i]? = some b → |a - b| < δ := by
    intro i a b ha hb
    cases i with
    | zero => cases ha; cases hb; exact ht
    | succ i => cases ha
  obtain ⟨st', x, e, hl, hx⟩ := h [t] hphys hnear 60 (N + 1) (N + 1) none plugins st 0 (by norm_num) (by omega) (by omega)
  obtain ⟨x, rfl⟩ : ∃ y, x = [y] := List.length_eq_one_iff.mp hl
  exact ⟨st', x, e, hx 0 _ _ rfl rfl⟩

end Verif
