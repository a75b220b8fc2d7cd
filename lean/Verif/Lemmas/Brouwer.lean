import Mathlib.Topology.Algebra.Polynomial
import Mathlib.MeasureTheory.Function.Jacobian
import Mathlib.MeasureTheory.Measure.Haar.InnerProductSpace
import Mathlib.LinearAlgebra.Lagrange
import Mathlib.LinearAlgebra.Matrix.Polynomial
import Mathlib.Topology.MetricSpace.Contracting
import Mathlib.Analysis.InnerProductSpace.Calculus
import Mathlib.Analysis.InnerProductSpace.PiL2
import Mathlib.Analysis.Calculus.BumpFunction.SmoothApprox
import Mathlib.Analysis.InnerProductSpace.Projection.Minimal
import Mathlib.Analysis.SpecialFunctions.Sqrt
import Mathlib.Analysis.Calculus.MeanValue
import Mathlib.MeasureTheory.Constructions.BorelSpace.Basic

/-
Brouwer's fixed point theorem, by Milnor's and Rogers' argument: for a retraction of the ball onto
the sphere the volume of the image of x + t h(x) would be a polynomial in t that is constant for
small t and zero for t = 1. No code is modelled here; used for the existence of steady states (C122).
-/

namespace Verif.Brouwer
open Set Metric MeasureTheory

variable {E : Type} [NormedAddCommGroup E] [InnerProductSpace ℝ E] [FiniteDimensional ℝ E]

/-- The determinant of `1 + t A` is a polynomial in `t` of bounded degree. -/
theorem det_poly (A : E →L[ℝ] E) : ∃ p : Polynomial ℝ, (∀ t : ℝ, p.eval t = (1 + t • A).det) ∧ p.natDegree ≤ Module.finrank ℝ E := by
  let b := Module.finBasis ℝ E
  let M := LinearMap.toMatrix b b (A : E →ₗ[ℝ] E)
  refine ⟨Matrix.det ((Polynomial.X : Polynomial ℝ) • M.map Polynomial.C + (1 : Matrix _ _ ℝ).map Polynomial.C), ?_, ?_⟩
  · intro t
    have h1 : (1 + t • A).det = LinearMap.det ((1 : E →ₗ[ℝ] E) + t • (A : E →ₗ[ℝ] E)) := rfl
    rw [h1, ← LinearMap.det_toMatrix b, map_add, map_smul, LinearMap.toMatrix_one]
    have h2 := (Polynomial.evalRingHom t).map_det ((Polynomial.X : Polynomial ℝ) • M.map Polynomial.C + (1 : Matrix _ _ ℝ).map Polynomial.C)
    rw [Polynomial.coe_evalRingHom] at h2
    rw [h2]
    congr 1
    ext i j
    rcases eq_or_ne i j with rfl | hij
    · simp [Matrix.add_apply, Matrix.smul_apply, M]
      ring
    · simp [Matrix.add_apply, Matrix.smul_apply, M, Matrix.one_apply_ne hij]
      ring
  · have := Polynomial.natDegree_det_X_add_C_le M (1 : Matrix _ _ ℝ)
    rwa [Fintype.card_fin] at this

/-- Values of the determinant of `1 + t A` at few points fix its value at one. -/
theorem det_interp (v : ℕ → ℝ) (hv : Set.InjOn v (Finset.range (Module.finrank ℝ E + 1))) :
    ∃ w : ℕ → ℝ, (∑ i ∈ Finset.range (Module.finrank ℝ E + 1), w i = 1) ∧
      ∀ A : E →L[ℝ] E, (1 + A).det = ∑ i ∈ Finset.range (Module.finrank ℝ E + 1), (1 + v i • A).det * w i := by
  set s := Finset.range (Module.finrank ℝ E + 1) with hs
  refine ⟨fun i => Polynomial.eval 1 (Lagrange.basis s v i), ?_, ?_⟩
  · rw [← Polynomial.eval_finsetSum, Lagrange.sum_basis hv (by simp [hs])]
    simp
  · intro A
    obtain ⟨p, hp, hd⟩ := det_poly A
    have hdeg : p.degree < s.card := by
      rw [hs, Finset.card_range]
      refine lt_of_le_of_lt Polynomial.degree_le_natDegree ?_
      exact_mod_cast Nat.lt_succ_of_le hd
    have := congrArg (Polynomial.eval 1) (Lagrange.eq_interpolate hv hdeg)
    rw [hp, one_smul, Lagrange.interpolate_apply, Polynomial.eval_finsetSum] at this
    rw [this]
    refine Finset.sum_congr rfl fun i _ => ?_
    rw [Polynomial.eval_mul, Polynomial.eval_C, hp]

/-- Small perturbations of the identity have positive determinant. -/
theorem det_pos (A : E →L[ℝ] E) (h : ‖A‖ < 1) : 0 < (1 + A).det := by
  have hne : ∀ t ∈ Icc (0 : ℝ) 1, (1 + t • A).det ≠ 0 := by
    intro t ht h0
    have := LinearMap.bot_lt_ker_of_det_eq_zero (f := ((1 + t • A : E →L[ℝ] E) : E →ₗ[ℝ] E)) h0
    obtain ⟨x, hx, hx0⟩ := (Submodule.ne_bot_iff _).mp this.ne'
    have h1 : x + t • A x = 0 := hx
    have h2 : ‖x‖ ≤ t * (‖A‖ * ‖x‖) := by
      have : x = -(t • A x) := eq_neg_of_add_eq_zero_left h1
      calc ‖x‖ = ‖t • A x‖ := by conv_lhs => rw [this, norm_neg]
        _ = t * ‖A x‖ := by rw [norm_smul, Real.norm_of_nonneg ht.1]
        _ ≤ _ := mul_le_mul_of_nonneg_left (A.le_opNorm x) ht.1
    have h3 : 0 < ‖x‖ := norm_pos_iff.mpr hx0
    have h4 : t * (‖A‖ * ‖x‖) ≤ 1 * (‖A‖ * ‖x‖) := mul_le_mul_of_nonneg_right ht.2 (by positivity)
    nlinarith
  have hc : Continuous fun t : ℝ => (1 + t • A).det := by
    obtain ⟨p, hp, -⟩ := det_poly A
    simp only [← hp]
    exact p.continuous
  by_contra hn
  rw [not_lt] at hn
  have h0 : (1 + (0 : ℝ) • A).det = 1 := by
    rw [zero_smul, add_zero]; exact LinearMap.det_id
  have := intermediate_value_Icc' (zero_le_one (α := ℝ)) hc.continuousOn
  obtain ⟨t, ht, he⟩ := this ⟨by simpa using hn, by rw [h0]; exact zero_le_one⟩
  exact hne t ht he

/-- The ball does not retract onto the sphere. -/
theorem no_retraction [MeasurableSpace E] [BorelSpace E] {h : E → E} {L : NNReal} (hL : LipschitzWith L h) (h0 : ∀ x, 1 ≤ ‖x‖ → h x = 0)
    (hd : ∀ x ∈ ball (0 : E) 1, DifferentiableAt ℝ h x) (h1 : ∀ x ∈ ball (0 : E) 1, ‖x + h x‖ = 1) : False := by
  -- for small times the ball is mapped onto itself
  have vol : ∀ t : ℝ, 0 < t → t < 1 → t * L < 1 →
      ∫ x in ball (0 : E) 1, (1 + t • fderiv ℝ h x).det = (volume (ball (0 : E) 1)).toReal := by
    intro t t0 t1 tL
    have hinj : Function.Injective fun x => x + t • h x := by
      intro x y hxy
      have hxy : x + t • h x = y + t • h y := hxy
      have e1 : x - y = t • (h y - h x) := by rw [smul_sub, sub_eq_sub_iff_add_eq_add, hxy, add_comm]
      have e2 : ‖x - y‖ ≤ t * (L * ‖x - y‖) := by
        calc ‖x - y‖ = t * ‖h y - h x‖ := by conv_lhs => rw [e1, norm_smul, Real.norm_of_nonneg t0.le]
          _ ≤ t * (L * ‖y - x‖) := by
            refine mul_le_mul_of_nonneg_left ?_ t0.le
            have := hL.dist_le_mul y x
            rwa [dist_eq_norm, dist_eq_norm] at this
          _ = _ := by rw [norm_sub_rev]
      by_contra hne
      have : 0 < ‖x - y‖ := norm_pos_iff.mpr (sub_ne_zero.mpr hne)
      nlinarith
    have himg : (fun x => x + t • h x) '' ball 0 1 = ball 0 1 := by
      apply Subset.antisymm
      · rintro _ ⟨x, hx, rfl⟩
        have hx' : ‖x‖ < 1 := by simpa using hx
        have : x + t • h x = (1 - t) • x + t • (x + h x) := by rw [sub_smul, one_smul, smul_add]; abel
        simp only [mem_ball_zero_iff]
        rw [this]
        calc _ ≤ ‖(1 - t) • x‖ + ‖t • (x + h x)‖ := norm_add_le _ _
          _ = (1 - t) * ‖x‖ + t := by
            rw [norm_smul, norm_smul, h1 x hx, Real.norm_of_nonneg t0.le, Real.norm_of_nonneg (by linarith), mul_one]
          _ < 1 := by nlinarith
      · intro y hy
        have hK : ContractingWith (Real.toNNReal t * L) fun x => y - t • h x := by
          refine ⟨by rw [← NNReal.coe_lt_coe, NNReal.coe_mul, Real.coe_toNNReal _ t0.le]; exact_mod_cast tL, LipschitzWith.of_dist_le_mul fun x z => ?_⟩
          rw [dist_eq_norm, sub_sub_sub_cancel_left, ← smul_sub, norm_smul, Real.norm_of_nonneg t0.le]
          have := hL.dist_le_mul z x
          rw [dist_eq_norm] at this
          rw [dist_comm x z]
          calc _ ≤ t * (L * dist z x) := mul_le_mul_of_nonneg_left this t0.le
            _ = _ := by rw [NNReal.coe_mul, Real.coe_toNNReal _ t0.le, mul_assoc]
        obtain ⟨x, hx⟩ : ∃ x, y - t • h x = x := ⟨_, hK.fixedPoint_isFixedPt⟩
        refine ⟨x, ?_, ?_⟩
        · by_contra hn
          have : 1 ≤ ‖x‖ := by simpa using hn
          rw [h0 x this, smul_zero, sub_zero] at hx
          exact hn (hx ▸ hy)
        · show x + t • h x = y
          rw [← eq_sub_iff_add_eq]; exact hx.symm
    have key := integral_image_eq_integral_abs_det_fderiv_smul (volume : Measure E) (s := ball (0 : E) 1) measurableSet_ball
      (f := fun x => x + t • h x) (f' := fun x => 1 + t • fderiv ℝ h x)
      (fun x hx => (((hasFDerivAt_id x).add ((hd x hx).hasFDerivAt.const_smul t)).hasFDerivWithinAt)) hinj.injOn (fun _ => (1 : ℝ))
    rw [himg] at key
    simp only [smul_eq_mul, mul_one] at key
    rw [setIntegral_const, smul_eq_mul, mul_one] at key
    rw [show (volume (ball (0 : E) 1)).toReal = (volume : Measure E).real (ball 0 1) from rfl, key]
    refine setIntegral_congr_fun measurableSet_ball fun x _ => ?_
    refine (abs_of_pos ?_).symm
    apply det_pos
    rw [norm_smul, Real.norm_of_nonneg t0.le]
    calc _ ≤ t * (L : ℝ) := mul_le_mul_of_nonneg_left (norm_fderiv_le_of_lipschitz ℝ hL) t0.le
      _ < 1 := tL
  have vpos : 0 < (volume (ball (0 : E) 1)).toReal :=
    ENNReal.toReal_pos (measure_ball_pos _ _ one_pos).ne' measure_ball_lt_top.ne
  -- times
  set N := Module.finrank ℝ E + 1 with hN
  let v : ℕ → ℝ := fun i => 1 / ((i + 1 : ℝ) * (L + 2))
  have hL0 : (0 : ℝ) ≤ L := L.2
  have v0 : ∀ i, 0 < v i := fun i => by positivity
  have v1 : ∀ i, v i < 1 := fun i => by
    show 1 / ((i + 1 : ℝ) * (L + 2)) < 1
    rw [div_lt_one (by positivity)]
    nlinarith [(Nat.cast_nonneg i : (0 : ℝ) ≤ i)]
  have v2 : ∀ i, v i * L < 1 := fun i => by
    show 1 / ((i + 1 : ℝ) * (L + 2)) * L < 1
    rw [div_mul_eq_mul_div, one_mul, div_lt_one (by positivity)]
    nlinarith [(Nat.cast_nonneg i : (0 : ℝ) ≤ i)]
  have hv : Set.InjOn v (Finset.range N) := by
    intro i _ j _ hij
    have hij : 1 / ((i + 1 : ℝ) * (L + 2)) = 1 / ((j + 1 : ℝ) * (L + 2)) := hij
    field_simp at hij
    exact_mod_cast (by linarith : (i : ℝ) = j)
  obtain ⟨w, hw, hdet⟩ := det_interp (E := E) v hv
  have hint : ∀ i, Integrable (fun x => (1 + v i • fderiv ℝ h x).det) (volume.restrict (ball (0 : E) 1)) := by
    intro i
    by_contra hn
    have := vol (v i) (v0 i) (v1 i) (v2 i)
    rw [integral_undef hn] at this
    exact vpos.ne this
  have htot : ∫ x in ball (0 : E) 1, (1 + fderiv ℝ h x).det = (volume (ball (0 : E) 1)).toReal := by
    rw [show (fun x => (1 + fderiv ℝ h x).det) = fun x => ∑ i ∈ Finset.range N, (1 + v i • fderiv ℝ h x).det * w i from funext fun x => hdet _,
      integral_finsetSum _ fun i _ => (hint i).mul_const _]
    simp only [integral_mul_const, vol _ (v0 _) (v1 _) (v2 _)]
    rw [← Finset.mul_sum, hw, mul_one]
  have hzero : ∫ x in ball (0 : E) 1, (1 + fderiv ℝ h x).det = 0 := by
    rw [setIntegral_congr_fun measurableSet_ball (g := fun _ => (0 : ℝ))]
    · simp
    intro x hx
    dsimp only
    have hr : HasFDerivAt (fun x => x + h x) (1 + fderiv ℝ h x) x := (hasFDerivAt_id x).add (hd x hx).hasFDerivAt
    have horth : ∀ z, inner ℝ (x + h x) ((1 + fderiv ℝ h x) z) = 0 := by
      intro z
      have h2 : HasFDerivAt (fun x => ‖x + h x‖ ^ 2) _ x := hr.norm_sq
      have h3 : (fun x => ‖x + h x‖ ^ 2) =ᶠ[nhds x] fun _ => 1 := by
        filter_upwards [isOpen_ball.mem_nhds hx] with y hy
        rw [h1 y hy, one_pow]
      have h4 := (h2.congr_of_eventuallyEq h3.symm).unique (hasFDerivAt_const 1 x)
      have h5 := DFunLike.congr_fun h4 z
      have h6 : 2 * inner ℝ (x + h x) ((1 + fderiv ℝ h x) z) = 0 := by
        have h7 : (2 : ℕ) • inner ℝ (x + h x) ((1 + fderiv ℝ h x) z) = 0 := h5
        rw [nsmul_eq_mul] at h7; exact_mod_cast h7
      linarith
    by_contra hne
    have hu : IsUnit ((1 + fderiv ℝ h x : E →L[ℝ] E) : E →ₗ[ℝ] E) :=
      (LinearMap.isUnit_iff_isUnit_det _).mpr (isUnit_iff_ne_zero.mpr hne)
    obtain ⟨z, hz⟩ := ((Module.End.isUnit_iff _).mp hu).2 (x + h x)
    have hz : (1 + fderiv ℝ h x) z = x + h x := hz
    have := horth z
    rw [hz, real_inner_self_eq_norm_sq, h1 x hx] at this
    norm_num at this
  rw [htot] at hzero
  exact vpos.ne' hzero

/-- Nearest points of a closed convex set. -/
theorem exists_proj {K : Set E} (hne : K.Nonempty) (hc : IsClosed K) (hK : Convex ℝ K) :
    ∃ π : E → E, (∀ u, π u ∈ K) ∧ (∀ u, ∀ w ∈ K, inner ℝ (u - π u) (w - π u) ≤ 0) ∧ (∀ u ∈ K, π u = u) ∧ LipschitzWith 1 π := by
  choose π h1 h2 using fun u => exists_norm_eq_iInf_of_complete_convex hne hc.isComplete hK u
  have h3 : ∀ u, ∀ w ∈ K, inner ℝ (u - π u) (w - π u) ≤ 0 := fun u => (norm_eq_iInf_iff_real_inner_le_zero hK (h1 u)).mp (h2 u)
  refine ⟨π, h1, h3, ?_, ?_⟩
  · intro u hu
    have := h3 u u hu
    rw [real_inner_self_nonpos, sub_eq_zero] at this
    exact this.symm
  · refine LipschitzWith.of_dist_le_mul fun u w => ?_
    rw [NNReal.coe_one, one_mul, dist_eq_norm, dist_eq_norm]
    have a := h3 u _ (h1 w)
    have b := h3 w _ (h1 u)
    have c : inner ℝ (π u - π w) (π u - π w) ≤ inner ℝ (u - w) (π u - π w) := by
      simp only [inner_sub_left, inner_sub_right] at a b ⊢
      have := real_inner_comm (π u) (π w)
      linarith
    have d := real_inner_le_norm (u - w) (π u - π w)
    rw [real_inner_self_eq_norm_sq] at c
    rcases (norm_nonneg (π u - π w)).eq_or_lt with e | e
    · rw [← e]; exact norm_nonneg _
    · nlinarith

/-- A map with continuous derivative that maps the closed ball into the open ball has a fixed point. -/
theorem fixed_smooth {f : E → E} (hf : ContDiff ℝ 1 f) (hb : ∀ x, ‖x‖ ≤ 1 → ‖f x‖ < 1) : ∃ x, ‖x‖ ≤ 1 ∧ f x = x := by
  by_contra hno
  push Not at hno
  borelize E
  let u : E → E := fun x => x - f x
  let D : E → ℝ := fun x => inner ℝ x (u x) ^ 2 + ‖u x‖ ^ 2 * (1 - ‖x‖ ^ 2)
  let s : E → ℝ := fun x => (-inner ℝ x (u x) + √(D x)) / ‖u x‖ ^ 2
  have hu : ContDiff ℝ 1 u := contDiff_id.sub hf
  have hi : ContDiff ℝ 1 fun x => inner ℝ x (u x) := contDiff_id.inner ℝ hu
  have hn : ContDiff ℝ 1 fun x => ‖u x‖ ^ 2 := hu.norm_sq ℝ
  have hD : ContDiff ℝ 1 D := (hi.pow 2).add (hn.mul (contDiff_const.sub (contDiff_id.norm_sq ℝ)))
  have hu0 : ∀ x, ‖x‖ ≤ 1 → 0 < ‖u x‖ ^ 2 := fun x hx => by
    have : u x ≠ 0 := fun e => hno x hx (sub_eq_zero.mp e).symm
    have := norm_pos_iff.mpr this
    positivity
  have hi0 : ∀ x, ‖x‖ = 1 → 0 < inner ℝ x (u x) := fun x hx => by
    show 0 < inner ℝ x (x - f x)
    rw [inner_sub_right, real_inner_self_eq_norm_sq, hx]
    have := real_inner_le_norm x (f x)
    rw [hx] at this
    linarith [hb x hx.le]
  have hD0 : ∀ x, ‖x‖ ≤ 1 → 0 < D x := fun x hx => by
    show 0 < inner ℝ x (u x) ^ 2 + ‖u x‖ ^ 2 * (1 - ‖x‖ ^ 2)
    rcases hx.eq_or_lt with e | e
    · have := hi0 x e
      rw [e]; positivity
    · have h1 := hu0 x hx
      have h2 : 0 < 1 - ‖x‖ ^ 2 := by nlinarith [norm_nonneg x]
      positivity
  let U : Set E := {x | D x ≠ 0} ∩ {x | ‖u x‖ ^ 2 ≠ 0}
  have hU : IsOpen U := (isOpen_ne_fun hD.continuous continuous_const).inter (isOpen_ne_fun hn.continuous continuous_const)
  have hBU : closedBall (0 : E) 1 ⊆ U := fun x hx => by
    have hx : ‖x‖ ≤ 1 := by simpa using hx
    exact ⟨(hD0 x hx).ne', (hu0 x hx).ne'⟩
  have hs : ContDiffOn ℝ 1 s U := by
    refine ContDiffOn.div (hi.contDiffOn.neg.add (ContDiffOn.sqrt hD.contDiffOn fun x hx => hx.1)) hn.contDiffOn fun x hx => hx.2
  let h : E → E := fun x => s x • u x
  have hh : ContDiffOn ℝ 1 h U := hs.smul hu.contDiffOn
  have hdiff : ∀ x ∈ U, DifferentiableAt ℝ h x := fun x hx => (hh.differentiableOn one_ne_zero).differentiableAt (hU.mem_nhds hx)
  obtain ⟨C, hC⟩ := (isCompact_closedBall (0 : E) 1).exists_bound_of_continuousOn
    ((hh.continuousOn_fderiv_of_isOpen hU le_rfl).mono hBU)
  have hlip : LipschitzOnWith (Real.toNNReal C) h (closedBall 0 1) :=
    Convex.lipschitzOnWith_of_nnnorm_fderiv_le (𝕜 := ℝ) (fun x hx => hdiff x (hBU hx)) (fun x hx => by
      rw [← NNReal.coe_le_coe, coe_nnnorm]
      exact (hC x hx).trans (Real.le_coe_toNNReal C)) (convex_closedBall 0 1)
  have hsph : ∀ x, ‖x‖ = 1 → h x = 0 := fun x hx => by
    have : s x = 0 := by
      show (-inner ℝ x (u x) + √(inner ℝ x (u x) ^ 2 + ‖u x‖ ^ 2 * (1 - ‖x‖ ^ 2))) / ‖u x‖ ^ 2 = 0
      rw [hx, one_pow, sub_self, mul_zero, add_zero, Real.sqrt_sq (hi0 x hx).le, neg_add_cancel, zero_div]
    show s x • u x = 0
    rw [this, zero_smul]
  have hunit : ∀ x, ‖x‖ ≤ 1 → ‖x + h x‖ = 1 := fun x hx => by
    have h1 : ‖x + s x • u x‖ ^ 2 = 1 := by
      rw [norm_add_sq_real, inner_smul_right, norm_smul, mul_pow, Real.norm_eq_abs, sq_abs]
      have a0 := hu0 x hx
      have e : s x * ‖u x‖ ^ 2 = -inner ℝ x (u x) + √(D x) := div_mul_cancel₀ _ a0.ne'
      have e2 := Real.sq_sqrt (hD0 x hx).le
      have e3 : D x = inner ℝ x (u x) ^ 2 + ‖u x‖ ^ 2 * (1 - ‖x‖ ^ 2) := rfl
      generalize ‖u x‖ ^ 2 = a at *
      generalize inner ℝ x (u x) = b at *
      generalize √(D x) = r at *
      generalize s x = t at *
      have : a * (‖x‖ ^ 2 + 2 * (t * b) + t ^ 2 * a - 1) = 0 := by
        have e4 : r = t * a + b := by linarith
        rw [e4, e3] at e2
        linarith
      rcases mul_eq_zero.mp this with h' | h'
      · exact absurd h' a0.ne'
      · linarith
    have := norm_nonneg (x + s x • u x)
    show ‖x + s x • u x‖ = 1
    nlinarith
  obtain ⟨π, p1, p2, p3, p4⟩ := exists_proj (E := E) (K := closedBall 0 1) ⟨0, by simp⟩ isClosed_closedBall (convex_closedBall 0 1)
  have hout : ∀ x, 1 ≤ ‖x‖ → ‖π x‖ = 1 := fun x hx => by
    have hp : ‖π x‖ ≤ 1 := by simpa using p1 x
    have hx0 : 0 < ‖x‖ := by linarith
    have hy : (1 / ‖x‖) • x ∈ closedBall (0 : E) 1 := by
      rw [mem_closedBall_zero_iff, norm_smul, Real.norm_of_nonneg (by positivity)]
      field_simp
      exact le_rfl
    have h1 := p2 x _ hy
    rw [inner_sub_left, inner_sub_right, inner_sub_right, inner_smul_right, inner_smul_right, real_inner_self_eq_norm_sq,
      real_inner_self_eq_norm_sq, real_inner_comm] at h1
    have h2 := real_inner_le_norm (π x) x
    have h3 : 1 / ‖x‖ * ‖x‖ ^ 2 = ‖x‖ := by field_simp
    have h4 : 1 / ‖x‖ * inner ℝ (π x) x ≤ ‖π x‖ := by
      rw [one_div, inv_mul_le_iff₀ hx0]; linarith
    have h5 : (‖x‖ - ‖π x‖) * (1 - ‖π x‖) ≤ 0 := by
      nlinarith
    by_contra hne
    have h6 : ‖π x‖ < 1 := lt_of_le_of_ne hp hne
    nlinarith
  refine no_retraction (h := fun x => h (π x)) (L := Real.toNNReal C) ?_ (fun x hx => hsph _ (hout x hx)) ?_ ?_
  · refine LipschitzWith.of_dist_le_mul fun x y => ?_
    refine (hlip.dist_le_mul _ (p1 x) _ (p1 y)).trans (mul_le_mul_of_nonneg_left ?_ (NNReal.coe_nonneg _))
    simpa using p4.dist_le_mul x y
  · intro x hx
    refine (hdiff x (hBU (ball_subset_closedBall hx))).congr_of_eventuallyEq ?_
    filter_upwards [isOpen_ball.mem_nhds hx] with y hy
    rw [p3 y (ball_subset_closedBall hy)]
  · intro x hx
    have hx' := ball_subset_closedBall hx
    rw [p3 x hx']
    exact hunit x (by simpa using hx')

/-- Brouwer's fixed point theorem for the closed unit ball. -/
theorem fixed_ball {f : E → E} (hf : ContinuousOn f (closedBall 0 1)) (hb : ∀ x, ‖x‖ ≤ 1 → ‖f x‖ ≤ 1) : ∃ x, ‖x‖ ≤ 1 ∧ f x = x := by
  obtain ⟨π, p1, p2, p3, p4⟩ := exists_proj (E := E) (K := closedBall 0 1) ⟨0, by simp⟩ isClosed_closedBall (convex_closedBall 0 1)
  have hg : UniformContinuous fun x => f (π x) := by
    have h1 := (isCompact_closedBall (0 : E) 1).uniformContinuousOn_of_continuous hf
    rw [Metric.uniformContinuousOn_iff] at h1
    rw [Metric.uniformContinuous_iff]
    intro ε he
    obtain ⟨δ, d0, hδ⟩ := h1 ε he
    refine ⟨δ, d0, fun {x y} hxy => hδ _ (p1 x) _ (p1 y) (lt_of_le_of_lt ?_ hxy)⟩
    simpa using p4.dist_le_mul x y
  have happrox : ∀ ε : ℝ, 0 < ε → ∃ x, ‖x‖ ≤ 1 ∧ ‖f x - x‖ ≤ 3 * ε := by
    intro ε he
    obtain ⟨g, hgs, hgd⟩ := hg.exists_contDiff_dist_le he
    have hg1 : ∀ x, ‖x‖ ≤ 1 → ‖f x - g x‖ ≤ ε := by
      intro x hx
      have := hgd x
      rw [p3 x (by simpa using hx), dist_comm, dist_eq_norm] at this
      exact this.le
    have hgn : ∀ x, ‖x‖ ≤ 1 → ‖g x‖ ≤ 1 + ε := by
      intro x hx
      have h1 := hg1 x hx
      have h2 := hb x hx
      have h3 : g x = f x - (f x - g x) := by abel
      rw [h3]
      exact (norm_sub_le _ _).trans (by linarith)
    obtain ⟨x, hx, e⟩ := fixed_smooth (f := fun x => (1 / (1 + 2 * ε)) • g x) (contDiff_const.smul (hgs.of_le (by exact_mod_cast le_top))) (by
      intro x hx
      rw [norm_smul, Real.norm_of_nonneg (by positivity), div_mul_eq_mul_div, one_mul, div_lt_one (by positivity)]
      linarith [hgn x hx])
    refine ⟨x, hx, ?_⟩
    have e : (1 / (1 + 2 * ε)) • g x = x := e
    have e2 : g x = (1 + 2 * ε) • x := by
      rw [← e, smul_smul, e, mul_one_div_cancel (by positivity), one_smul]
    have e3 : f x - x = (f x - g x) + (2 * ε) • x := by rw [e2, add_smul, one_smul]; abel
    rw [e3]
    refine (norm_add_le _ _).trans ?_
    rw [norm_smul, Real.norm_of_nonneg (by positivity)]
    nlinarith [hg1 x hx]
  obtain ⟨x, hx, hmin⟩ := (isCompact_closedBall (0 : E) 1).exists_isMinOn ⟨0, by simp⟩ ((hf.sub continuousOn_id).norm)
  refine ⟨x, by simpa using hx, ?_⟩
  by_contra hne
  have hpos : 0 < ‖f x - x‖ := norm_pos_iff.mpr (sub_ne_zero.mpr hne)
  obtain ⟨y, hy, hy2⟩ := happrox (‖f x - x‖ / 6) (by positivity)
  have := isMinOn_iff.mp hmin y (by simpa using hy)
  have this : ‖f x - x‖ ≤ ‖f y - y‖ := this
  linarith

/-- A continuous field on a compact convex set has a point from which it does not point into the set. -/
theorem variational {K : Set E} (hne : K.Nonempty) (hc : IsCompact K) (hK : Convex ℝ K) {F : E → E} (hF : ContinuousOn F K) :
    ∃ x ∈ K, ∀ y ∈ K, inner ℝ (F x) (y - x) ≤ 0 := by
  obtain ⟨π, p1, p2, p3, p4⟩ := exists_proj hne hc.isClosed hK
  obtain ⟨R, hR⟩ := hc.isBounded.subset_closedBall 0
  let r := max R 1
  have r0 : 0 < r := lt_max_of_lt_right one_pos
  have hπ : Continuous π := p4.continuous
  have hG : Continuous fun x : E => (1 / r) • π (π (r • x) + F (π (r • x))) := by
    have h1 : Continuous fun x : E => π (r • x) := hπ.comp (continuous_const_smul r)
    exact (hπ.comp (h1.add (hF.comp_continuous h1 fun x => p1 _))).const_smul _
  obtain ⟨x, -, e⟩ := fixed_ball hG.continuousOn (by
    intro x _
    rw [norm_smul, Real.norm_of_nonneg (by positivity), div_mul_eq_mul_div, one_mul, div_le_one r0]
    have := hR (p1 (π (r • x) + F (π (r • x))))
    rw [mem_closedBall_zero_iff] at this
    exact this.trans (le_max_left _ _))
  have e2 : π (π (r • x) + F (π (r • x))) = r • x := by
    have := congrArg (r • ·) e
    rwa [smul_smul, mul_one_div_cancel r0.ne', one_smul] at this
  have hx : r • x ∈ K := e2 ▸ p1 _
  rw [p3 _ hx] at e2
  refine ⟨r • x, hx, fun y hy => ?_⟩
  have := p2 (r • x + F (r • x)) y hy
  rwa [e2, add_sub_cancel_left] at this

/-- A continuous field that points into a compact convex set everywhere vanishes somewhere in it. -/
theorem zero_of_inward {K : Set E} (hne : K.Nonempty) (hc : IsCompact K) (hK : Convex ℝ K) {F : E → E} (hF : ContinuousOn F K)
    (hin : ∀ x ∈ K, ∃ t : ℝ, 0 < t ∧ x + t • F x ∈ K) : ∃ x ∈ K, F x = 0 := by
  obtain ⟨x, hx, h⟩ := variational hne hc hK hF
  refine ⟨x, hx, ?_⟩
  obtain ⟨t, t0, ht⟩ := hin x hx
  have := h _ ht
  rw [add_sub_cancel_left, inner_smul_right, real_inner_self_eq_norm_sq] at this
  have h2 : ‖F x‖ ^ 2 ≤ 0 := by
    by_contra hn
    rw [not_le] at hn
    exact absurd this (not_le.mpr (mul_pos t0 hn))
  exact norm_eq_zero.mp (pow_eq_zero_iff (two_ne_zero) |>.mp (le_antisymm h2 (sq_nonneg _)))

end Verif.Brouwer
