import Mathlib.Analysis.ODE.PicardLindelof
import Mathlib.Analysis.ODE.ExistUnique
import Mathlib.Topology.Algebra.MetricSpace.Lipschitz
import Mathlib.Analysis.Calculus.ContDiff.RCLike
import Mathlib.Analysis.Calculus.Deriv.MeanValue
import Mathlib.Analysis.SpecialFunctions.ExpDeriv
import Mathlib.Analysis.SpecialFunctions.Pow.Deriv
/-
Differential equations in finitely many unknowns: solutions stay nonnegative, are unique and exist.
-/
namespace Verif.Flow
open Set Finset

/-- A function whose growth is bounded by itself. -/
theorem gronwall {V : ℝ → ℝ} {C T : ℝ} (hc : ContinuousOn V (Icc 0 T))
    (hd : ∀ t ∈ Ioo 0 T, ∃ d, HasDerivAt V d t ∧ d ≤ C * V t) : ∀ t ∈ Icc 0 T, V t ≤ V 0 * Real.exp (C * t) := by
  have hW : AntitoneOn (fun t => V t * Real.exp (-C * t)) (Icc 0 T) := by
    apply antitoneOn_of_deriv_nonpos (convex_Icc 0 T)
    · exact hc.mul (by fun_prop)
    · intro t ht
      rw [interior_Icc] at ht
      obtain ⟨d, h1, -⟩ := hd t ht
      exact (h1.differentiableAt.mul (by fun_prop)).differentiableWithinAt
    · intro t ht
      rw [interior_Icc] at ht
      obtain ⟨d, h1, h2⟩ := hd t ht
      have he : HasDerivAt (fun t => Real.exp (-C * t)) (Real.exp (-C * t) * (-C)) t := by
        have := ((hasDerivAt_id t).const_mul (-C)).exp
        simpa using this
      rw [(h1.fun_mul he).deriv]
      have hpos := Real.exp_pos (-C * t)
      nlinarith
  intro t ht
  have h0 : (0 : ℝ) ∈ Icc 0 T := ⟨le_rfl, ht.1.trans ht.2⟩
  have := hW h0 ht ht.1
  simp only [mul_zero, Real.exp_zero, mul_one] at this
  have hpos := Real.exp_pos (C * t)
  calc V t = V t * Real.exp (-C * t) * Real.exp (C * t) := by
        rw [mul_assoc, ← Real.exp_add]; simp
    _ ≤ V 0 * Real.exp (C * t) := by nlinarith

variable {ι : Type} [Fintype ι]

/-- `y` solves the equations on the interval. -/
structure Solves (G : (ι → ℝ) → ι → ℝ) (T : ℝ) (y : ℝ → ι → ℝ) : Prop where
  cont : ∀ i, ContinuousOn (fun t => y t i) (Icc 0 T)
  deriv : ∀ t ∈ Ioo 0 T, ∀ i, HasDerivAt (fun τ => y τ i) (G (y t) i) t

/-- Lipschitz on every bounded set. -/
def Lip (G : (ι → ℝ) → ι → ℝ) : Prop :=
  ∀ R : ℝ, ∃ L : ℝ, 0 ≤ L ∧ ∀ y z : ι → ℝ, (∀ i, |y i| ≤ R) → (∀ i, |z i| ≤ R) → ∀ i, |G y i - G z i| ≤ L * ∑ j, |y j - z j|

theorem lip_of_contDiff {G : (ι → ℝ) → ι → ℝ} (h : ContDiff ℝ 1 G) : Lip G := by
  intro R
  obtain ⟨K, hK⟩ := LocallyLipschitzOn.exists_lipschitzOnWith_of_compact (isCompact_closedBall (0 : ι → ℝ) (max R 0))
    h.locallyLipschitz.locallyLipschitzOn
  refine ⟨K, K.2, ?_⟩
  intro y z hy hz i
  have hmem : ∀ w : ι → ℝ, (∀ i, |w i| ≤ R) → w ∈ Metric.closedBall (0 : ι → ℝ) (max R 0) := by
    intro w hw
    rw [mem_closedBall_zero_iff, pi_norm_le_iff_of_nonneg (le_max_right _ _)]
    intro i
    exact (hw i).trans (le_max_left _ _)
  have h1 := hK.dist_le_mul y (hmem y hy) z (hmem z hz)
  have h2 : |G y i - G z i| ≤ dist (G y) (G z) := by
    rw [← Real.dist_eq]
    exact dist_le_pi_dist (G y) (G z) i
  have h3 : dist y z ≤ ∑ j, |y j - z j| := by
    rw [dist_pi_le_iff (Finset.sum_nonneg fun j _ => abs_nonneg _)]
    intro j
    rw [Real.dist_eq]
    exact Finset.single_le_sum (f := fun j => |y j - z j|) (fun j _ => abs_nonneg _) (Finset.mem_univ j)
  exact h2.trans (h1.trans (mul_le_mul_of_nonneg_left h3 K.2))

theorem bounded {G : (ι → ℝ) → ι → ℝ} {T : ℝ} {y : ℝ → ι → ℝ} (h : Solves G T y) : ∃ R, ∀ t ∈ Icc 0 T, ∀ i, |y t i| ≤ R := by
  have hb : ∀ i, ∃ B, ∀ t ∈ Icc 0 T, |y t i| ≤ B := by
    intro i
    obtain ⟨B, hB⟩ := isCompact_Icc.exists_bound_of_continuousOn (h.cont i)
    exact ⟨B, fun t ht => by simpa using hB t ht⟩
  choose B hB using hb
  refine ⟨∑ i, |B i|, ?_⟩
  intro t ht i
  exact (hB i t ht).trans ((le_abs_self _).trans (Finset.single_le_sum (f := fun j => |B j|) (fun j _ => abs_nonneg _) (Finset.mem_univ i)))

/-- Sums of products of two vectors. -/
theorem sum_mul_sum_le (a : ι → ℝ) : (∑ i, |a i|) * (∑ i, |a i|) ≤ Fintype.card ι * ∑ i, a i ^ 2 := by
  have := Finset.sum_mul_sq_le_sq_mul_sq (Finset.univ : Finset ι) (fun _ => (1 : ℝ)) (fun i => |a i|)
  simp only [one_mul, one_pow, sq_abs, Finset.sum_const, Finset.card_univ, nsmul_eq_mul, mul_one] at this
  rw [← sq]
  exact this

/-- Nothing that is zero decreases. -/
def Inward (G : (ι → ℝ) → ι → ℝ) : Prop := ∀ y, (∀ i, 0 ≤ y i) → ∀ i, y i = 0 → 0 ≤ G y i

theorem hasDerivAt_negPart_sq (x : ℝ) : HasDerivAt (fun x => min x 0 ^ 2) (2 * min x 0) x := by
  rcases lt_trichotomy x 0 with h | rfl | h
  · have h1 : HasDerivAt (fun x : ℝ => x ^ 2) (2 * x) x := by simpa using hasDerivAt_pow 2 x
    rw [min_eq_left h.le]
    apply h1.congr_of_eventuallyEq
    filter_upwards [Iio_mem_nhds h] with z hz
    rw [min_eq_left (le_of_lt hz)]
  · rw [min_self, mul_zero, hasDerivAt_iff_isLittleO_nhds_zero]
    simp only [zero_add, min_self, ne_eq, OfNat.ofNat_ne_zero, not_false_eq_true, zero_pow, sub_zero, smul_zero]
    have hb : (fun h : ℝ => min h 0 ^ 2) =O[nhds 0] fun h : ℝ => h ^ 2 := by
      apply Asymptotics.isBigO_of_le
      intro h
      rw [Real.norm_eq_abs, Real.norm_eq_abs, abs_of_nonneg (sq_nonneg _), abs_of_nonneg (sq_nonneg _)]
      rcases le_total h 0 with h0 | h0
      · rw [min_eq_left h0]
      · rw [min_eq_right h0]; nlinarith [sq_nonneg h]
    refine hb.trans_isLittleO ?_
    have := Asymptotics.isLittleO_pow_id (𝕜 := ℝ) (n := 2) (by norm_num)
    exact this
  · rw [min_eq_right h.le, mul_zero]
    apply (hasDerivAt_const x (0 : ℝ)).congr_of_eventuallyEq
    filter_upwards [Ioi_mem_nhds h] with z hz
    rw [min_eq_right (le_of_lt hz)]
    norm_num

/-- Solutions that begin nonnegative stay so. -/
theorem nonneg {G : (ι → ℝ) → ι → ℝ} (hL : Lip G) (hI : Inward G) {T : ℝ} {y : ℝ → ι → ℝ} (h : Solves G T y) (h0 : ∀ i, 0 ≤ y 0 i) :
    ∀ t ∈ Icc 0 T, ∀ i, 0 ≤ y t i := by
  obtain ⟨R, hR⟩ := bounded h
  obtain ⟨L, hL0, hL⟩ := hL R
  have key := gronwall (V := fun t => ∑ i, min (y t i) 0 ^ 2) (C := 2 * L * Fintype.card ι) (T := T) ?_ ?_
  · intro t ht i
    have := key t ht
    have hz : ∑ i, min (y 0 i) 0 ^ 2 = 0 := by
      apply Finset.sum_eq_zero
      intro i _
      rw [min_eq_right (h0 i)]; norm_num
    rw [hz, zero_mul] at this
    have h2 := Finset.single_le_sum (f := fun i => min (y t i) 0 ^ 2) (fun j _ => sq_nonneg _) (Finset.mem_univ i)
    have h3 : min (y t i) 0 ^ 2 = 0 := le_antisymm (h2.trans this) (sq_nonneg _)
    have h4 : min (y t i) 0 = 0 := by simpa using h3
    exact min_eq_right_iff.mp h4
  · apply continuousOn_finsetSum
    intro i _
    exact (ContinuousOn.inf (h.cont i) continuousOn_const).pow 2
  · intro t ht
    refine ⟨∑ i, 2 * min (y t i) 0 * G (y t) i, ?_, ?_⟩
    · apply HasDerivAt.fun_sum
      intro i _
      exact (hasDerivAt_negPart_sq (y t i)).comp t (h.deriv t ht i)
    · have hti : t ∈ Icc 0 T := ⟨ht.1.le, ht.2.le⟩
      -- the positive part
      set p : ι → ℝ := fun i => max (y t i) 0 with hp
      have hdiff : ∀ i, |y t i - p i| = |min (y t i) 0| := by
        intro i
        have : y t i - p i = min (y t i) 0 := by
          rw [hp]
          have := min_add_max (y t i) 0
          simp only
          linarith
        rw [this]
      have hpb : ∀ i, |p i| ≤ R := by
        intro i
        have h1 := hR t hti i
        have h2 := abs_le.mp h1
        rw [abs_of_nonneg (le_max_right _ _)]
        exact max_le h2.2 ((abs_nonneg _).trans h1)
      have hterm : ∀ i, 2 * min (y t i) 0 * G (y t) i ≤ 2 * L * (|min (y t i) 0| * ∑ j, |min (y t j) 0|) := by
        intro i
        rcases le_or_gt 0 (y t i) with hyi | hyi
        · rw [min_eq_right hyi]; simp
        · have hmn : min (y t i) 0 = y t i := min_eq_left hyi.le
          have hpi : p i = 0 := max_eq_right hyi.le
          have hG := hI p (fun j => le_max_right _ _) i hpi
          have hl := hL (y t) p (hR t hti) hpb i
          simp only [hdiff] at hl
          have hl' := (abs_le.mp hl).1
          rw [abs_of_neg (by rw [hmn]; exact hyi), hmn]
          nlinarith
      calc ∑ i, 2 * min (y t i) 0 * G (y t) i ≤ ∑ i, 2 * L * (|min (y t i) 0| * ∑ j, |min (y t j) 0|) := Finset.sum_le_sum fun i _ => hterm i
        _ = 2 * L * ((∑ i, |min (y t i) 0|) * ∑ j, |min (y t j) 0|) := by rw [← Finset.mul_sum, Finset.sum_mul]
        _ ≤ 2 * L * (Fintype.card ι * ∑ i, min (y t i) 0 ^ 2) := mul_le_mul_of_nonneg_left (sum_mul_sum_le _) (by positivity)
        _ = 2 * L * Fintype.card ι * ∑ i, min (y t i) 0 ^ 2 := by ring

/-- What is there at the beginning does not vanish. -/
theorem positive {G : (ι → ℝ) → ι → ℝ} (hL : Lip G) (hI : Inward G) {T : ℝ} {y : ℝ → ι → ℝ} (h : Solves G T y) (h0 : ∀ i, 0 ≤ y 0 i)
    (i : ι) (hi : 0 < y 0 i) : ∀ t ∈ Icc 0 T, 0 < y t i := by
  classical
  have hnn := nonneg hL hI h h0
  obtain ⟨R, hR⟩ := bounded h
  obtain ⟨L, hL0, hL⟩ := hL R
  have key := gronwall (V := fun t => - y t i) (C := -L) (T := T) (h.cont i).neg ?_
  · intro t ht
    have := key t ht
    have : 0 < y 0 i * Real.exp (-L * t) := mul_pos hi (Real.exp_pos _)
    nlinarith
  · intro t ht
    have hti : t ∈ Icc 0 T := ⟨ht.1.le, ht.2.le⟩
    refine ⟨_, (h.deriv t ht i).neg, ?_⟩
    set p : ι → ℝ := Function.update (y t) i 0 with hp
    have hp0 : ∀ j, 0 ≤ p j := by
      intro j
      by_cases e : j = i
      · subst e; simp [hp]
      · rw [hp, Function.update_of_ne e]; exact hnn t hti j
    have hpR : ∀ j, |p j| ≤ R := by
      intro j
      by_cases e : j = i
      · subst e
        rw [hp, Function.update_self, abs_zero]
        exact (abs_nonneg _).trans (hR t hti j)
      · rw [hp, Function.update_of_ne e]; exact hR t hti j
    have hG := hI p hp0 i (by simp [hp])
    have hl := hL (y t) p (hR t hti) hpR i
    have hs : ∑ j, |y t j - p j| = y t i := by
      rw [Finset.sum_eq_single i]
      · rw [hp, Function.update_self, sub_zero, abs_of_nonneg (hnn t hti i)]
      · intro j _ e
        rw [hp, Function.update_of_ne e]; simp
      · intro e; exact absurd (Finset.mem_univ i) e
    rw [hs] at hl
    have := (abs_le.mp hl).1
    linarith

/-- Two solutions differ by no more than the exponential of time times what they differed at the beginning. -/
theorem close {G : (ι → ℝ) → ι → ℝ} (hL : Lip G) {T : ℝ} {y z : ℝ → ι → ℝ} (hy : Solves G T y) (hz : Solves G T z) :
    ∃ C, ∀ t ∈ Icc 0 T, ∑ i, (y t i - z t i) ^ 2 ≤ (∑ i, (y 0 i - z 0 i) ^ 2) * Real.exp (C * t) := by
  obtain ⟨R1, hR1⟩ := bounded hy
  obtain ⟨R2, hR2⟩ := bounded hz
  obtain ⟨L, hL0, hL⟩ := hL (max R1 R2)
  refine ⟨2 * L * Fintype.card ι, gronwall (V := fun t => ∑ i, (y t i - z t i) ^ 2) ?_ ?_⟩
  · apply continuousOn_finsetSum
    intro i _
    exact ((hy.cont i).sub (hz.cont i)).pow 2
  · intro t ht
    have hti : t ∈ Icc 0 T := ⟨ht.1.le, ht.2.le⟩
    refine ⟨∑ i, 2 * (y t i - z t i) * (G (y t) i - G (z t) i), ?_, ?_⟩
    · apply HasDerivAt.fun_sum
      intro i _
      have := ((hy.deriv t ht i).fun_sub (hz.deriv t ht i)).fun_pow 2
      simpa using this
    · have hterm : ∀ i, 2 * (y t i - z t i) * (G (y t) i - G (z t) i) ≤ 2 * L * (|y t i - z t i| * ∑ j, |y t j - z t j|) := by
        intro i
        have hl := hL (y t) (z t) (fun j => (hR1 t hti j).trans (le_max_left _ _)) (fun j => (hR2 t hti j).trans (le_max_right _ _)) i
        have h1 : (y t i - z t i) * (G (y t) i - G (z t) i) ≤ |y t i - z t i| * |G (y t) i - G (z t) i| := by
          rw [← abs_mul]; exact le_abs_self _
        have h2 := mul_le_mul_of_nonneg_left hl (abs_nonneg (y t i - z t i))
        nlinarith
      calc ∑ i, 2 * (y t i - z t i) * (G (y t) i - G (z t) i) ≤ ∑ i, 2 * L * (|y t i - z t i| * ∑ j, |y t j - z t j|) := Finset.sum_le_sum fun i _ => hterm i
        _ = 2 * L * ((∑ i, |y t i - z t i|) * ∑ j, |y t j - z t j|) := by rw [← Finset.mul_sum, Finset.sum_mul]
        _ ≤ 2 * L * (Fintype.card ι * ∑ i, (y t i - z t i) ^ 2) := mul_le_mul_of_nonneg_left (sum_mul_sum_le fun i => y t i - z t i) (by positivity)
        _ = 2 * L * Fintype.card ι * ∑ i, (y t i - z t i) ^ 2 := by ring

/-- Solutions with the same beginning are the same. -/
theorem unique {G : (ι → ℝ) → ι → ℝ} (hL : Lip G) {T : ℝ} {y z : ℝ → ι → ℝ} (hy : Solves G T y) (hz : Solves G T z) (h0 : y 0 = z 0) :
    ∀ t ∈ Icc 0 T, y t = z t := by
  obtain ⟨C, hC⟩ := close hL hy hz
  intro t ht
  have := hC t ht
  rw [h0] at this
  simp only [sub_self, ne_eq, OfNat.ofNat_ne_zero, not_false_eq_true, zero_pow, Finset.sum_const_zero, zero_mul] at this
  funext i
  have h2 := Finset.single_le_sum (f := fun i => (y t i - z t i) ^ 2) (fun j _ => sq_nonneg _) (Finset.mem_univ i)
  have h3 : (y t i - z t i) ^ 2 = 0 := le_antisymm (h2.trans this) (sq_nonneg _)
  have h4 : y t i - z t i = 0 := by simpa using h3
  linarith

/-- A function without slope does not change. -/
theorem const {f : ℝ → ℝ} {T : ℝ} (hc : ContinuousOn f (Icc 0 T)) (hd : ∀ t ∈ Ioo 0 T, HasDerivAt f 0 t) :
    ∀ t ∈ Icc 0 T, f t = f 0 := by
  intro t ht
  have h0 : (0 : ℝ) ∈ Icc 0 T := ⟨le_rfl, ht.1.trans ht.2⟩
  have hdi : DifferentiableOn ℝ f (interior (Icc 0 T)) := by
    intro s hs
    rw [interior_Icc] at hs
    exact (hd s hs).differentiableAt.differentiableWithinAt
  have a1 := antitoneOn_of_deriv_nonpos (convex_Icc 0 T) hc hdi (fun s hs => by
    rw [interior_Icc] at hs
    exact (hd s hs).deriv.le) h0 ht ht.1
  have a2 := monotoneOn_of_deriv_nonneg (convex_Icc 0 T) hc hdi (fun s hs => by
    rw [interior_Icc] at hs
    exact (hd s hs).deriv.ge) h0 ht ht.1
  exact le_antisymm a1 a2

/-- A sum that does not change. -/
theorem conserved {G : (ι → ℝ) → ι → ℝ} (w : ι → ℝ) (hw : ∀ y, ∑ i, w i * G y i = 0) {T : ℝ} {y : ℝ → ι → ℝ} (h : Solves G T y) :
    ∀ t ∈ Icc 0 T, ∑ i, w i * y t i = ∑ i, w i * y 0 i := by
  have hc : ContinuousOn (fun t => ∑ i, w i * y t i) (Icc 0 T) := by
    apply continuousOn_finsetSum
    intro i _
    exact continuousOn_const.mul (h.cont i)
  have hd : ∀ t ∈ Ioo 0 T, HasDerivAt (fun t => ∑ i, w i * y t i) 0 t := by
    intro t ht
    rw [← hw (y t)]
    apply HasDerivAt.fun_sum
    intro i _
    exact (h.deriv t ht i).const_mul _
  exact const hc hd

/-- A vector cut to an interval. -/
def clip (R : ℝ) (y : ι → ℝ) : ι → ℝ := fun i => max 0 (min R (y i))

omit [Fintype ι] in
theorem clip_lip (R : ℝ) (y z : ι → ℝ) (i : ι) : |clip R y i - clip R z i| ≤ |y i - z i| := by
  unfold clip
  refine (abs_max_sub_max_le_max 0 _ 0 _).trans ?_
  rw [sub_self, abs_zero, max_eq_right (abs_nonneg _)]
  refine (abs_min_sub_min_le_max R _ R _).trans ?_
  rw [sub_self, abs_zero, max_eq_right (abs_nonneg _)]

omit [Fintype ι] in
theorem clip_bound {R : ℝ} (hR : 0 ≤ R) (y : ι → ℝ) (i : ι) : 0 ≤ clip R y i ∧ clip R y i ≤ R :=
  ⟨le_max_left _ _, max_le hR (min_le_left _ _)⟩

/-- From every nonnegative beginning there is a solution for any time, if the sum of all does not change. -/
theorem exist {G : (ι → ℝ) → ι → ℝ} (hL : Lip G) (hI : Inward G) (hS : ∀ y, ∑ i, G y i = 0) (y0 : ι → ℝ) (h0 : ∀ i, 0 ≤ y0 i) {T : ℝ} (hT : 0 ≤ T) :
    ∃ y, Solves G T y ∧ y 0 = y0 := by
  set M := ∑ i, y0 i with hM
  have hM0 : 0 ≤ M := Finset.sum_nonneg fun i _ => h0 i
  set F : (ι → ℝ) → ι → ℝ := fun y => G (clip M y) with hF
  obtain ⟨L, hL0, hLM⟩ := hL M
  have habs : ∀ y : ι → ℝ, ∀ i, |clip M y i| ≤ M := fun y i => by
    rw [abs_of_nonneg (clip_bound hM0 y i).1]; exact (clip_bound hM0 y i).2
  have hFl : ∀ y z i, |F y i - F z i| ≤ L * ∑ j, |y j - z j| := by
    intro y z i
    refine (hLM _ _ (habs y) (habs z) i).trans ?_
    exact mul_le_mul_of_nonneg_left (Finset.sum_le_sum fun j _ => clip_lip M y z j) hL0
  have hFL : Lip F := fun R => ⟨L, hL0, fun y z _ _ i => hFl y z i⟩
  have hFI : Inward F := by
    intro y hy i hi
    apply hI
    · intro j; exact (clip_bound hM0 y j).1
    · unfold clip; rw [hi, min_eq_right hM0, max_self]
  -- bounds for the theorem of Picard and Lindelöf
  have hK : LipschitzWith (Real.toNNReal (L * Fintype.card ι)) F := by
    apply LipschitzWith.of_dist_le_mul
    intro y z
    rw [dist_pi_le_iff (by positivity)]
    intro i
    rw [Real.dist_eq, Real.coe_toNNReal _ (by positivity)]
    refine (hFl y z i).trans ?_
    have : ∑ j, |y j - z j| ≤ Fintype.card ι * dist y z := by
      have := Finset.sum_le_card_nsmul (Finset.univ : Finset ι) (fun j => |y j - z j|) (dist y z) (fun j _ => by
        rw [← Real.dist_eq]; exact dist_le_pi_dist y z j)
      simpa [nsmul_eq_mul] using this
    calc L * ∑ j, |y j - z j| ≤ L * (Fintype.card ι * dist y z) := mul_le_mul_of_nonneg_left this hL0
      _ = L * Fintype.card ι * dist y z := by ring
  obtain ⟨B, hB0, hB⟩ : ∃ B : ℝ, 0 ≤ B ∧ ∀ y, ‖F y‖ ≤ B := by
    refine ⟨∑ i, (|F 0 i| + L * (Fintype.card ι * M)), Finset.sum_nonneg fun i _ => by positivity, ?_⟩
    intro y
    rw [pi_norm_le_iff_of_nonneg (Finset.sum_nonneg fun i _ => by positivity)]
    intro i
    have h1 : |F y i - F 0 i| ≤ L * (Fintype.card ι * M) := by
      refine (hLM _ _ (habs y) (habs 0) i).trans (mul_le_mul_of_nonneg_left ?_ hL0)
      have := Finset.sum_le_card_nsmul (Finset.univ : Finset ι) (fun j => |clip M y j - clip M 0 j|) M (fun j _ => by
        have a := clip_bound hM0 y j
        have b := clip_bound hM0 (0 : ι → ℝ) j
        rw [abs_le]
        constructor <;> linarith)
      simpa [nsmul_eq_mul] using this
    have h2 : |F y i| ≤ |F 0 i| + L * (Fintype.card ι * M) := by
      have := abs_sub_abs_le_abs_sub (F y i) (F 0 i)
      linarith
    refine le_trans ?_ (Finset.single_le_sum (f := fun i => |F 0 i| + L * (Fintype.card ι * M)) (fun j _ => by positivity) (Finset.mem_univ i))
    simpa using h2
  have hPL : IsPicardLindelof (fun _ => F) (⟨0, le_rfl, hT⟩ : Icc (0 : ℝ) T) y0 (Real.toNNReal (B * T)) 0 (Real.toNNReal B) (Real.toNNReal (L * Fintype.card ι)) := by
    apply IsPicardLindelof.of_time_independent
    · intro x _
      rw [Real.coe_toNNReal _ hB0]
      exact hB x
    · exact hK.lipschitzOnWith
    · rw [Real.coe_toNNReal _ hB0, Real.coe_toNNReal _ (by positivity)]
      simp [hT]
  obtain ⟨y, hy0, hyd⟩ := hPL.exists_eq_forall_mem_Icc_hasDerivWithinAt₀
  have hSF : Solves F T y := by
    constructor
    · intro i t ht
      exact ((hasDerivWithinAt_pi.mp (hyd t ht)) i).continuousWithinAt
    · intro t ht i
      exact ((hasDerivWithinAt_pi.mp (hyd t ⟨ht.1.le, ht.2.le⟩)) i).hasDerivAt (Icc_mem_nhds ht.1 ht.2)
  have hnn := nonneg hFL hFI hSF (fun i => by rw [show y 0 = y0 from hy0]; exact h0 i)
  have hsum := conserved (G := F) (fun _ => 1) (fun z => by simpa using hS (clip M z)) hSF
  refine ⟨y, ⟨hSF.cont, ?_⟩, hy0⟩
  intro t ht i
  have hti : t ∈ Icc 0 T := ⟨ht.1.le, ht.2.le⟩
  have hcl : clip M (y t) = y t := by
    funext j
    have h1 := hnn t hti j
    have h2 : y t j ≤ M := by
      have := hsum t hti
      simp only [one_mul] at this
      rw [hM, ← show y 0 = y0 from hy0, ← this]
      exact Finset.single_le_sum (f := fun j => y t j) (fun j _ => hnn t hti j) (Finset.mem_univ j)
    unfold clip
    rw [min_eq_right h2, max_eq_right h1]
  have := hSF.deriv t ht i
  rw [hF] at this
  simp only [hcl] at this
  exact this

omit [Fintype ι] in
theorem Solves.mono {G : (ι → ℝ) → ι → ℝ} {S T : ℝ} {y : ℝ → ι → ℝ} (h : Solves G T y) (hS : S ≤ T) : Solves G S y :=
  ⟨fun i => (h.cont i).mono (Icc_subset_Icc_right hS), fun t ht => h.deriv t ⟨ht.1, ht.2.trans_le hS⟩⟩

/-- One solution for all times. -/
theorem exist_global {G : (ι → ℝ) → ι → ℝ} (hL : Lip G) (hI : Inward G) (hS : ∀ y, ∑ i, G y i = 0) (y0 : ι → ℝ) (h0 : ∀ i, 0 ≤ y0 i) :
    ∃ y, y 0 = y0 ∧ ∀ T, Solves G T y := by
  have hex : ∀ T : ℝ, ∃ y, 0 ≤ T → Solves G T y ∧ y 0 = y0 := by
    intro T
    by_cases hT : 0 ≤ T
    · obtain ⟨y, hy⟩ := exist hL hI hS y0 h0 hT
      exact ⟨y, fun _ => hy⟩
    · exact ⟨fun _ => y0, fun h => absurd h hT⟩
  choose Y hY using hex
  have hag : ∀ S T t, 0 ≤ t → t ≤ S → t ≤ T → Y S t = Y T t := by
    intro S T t h1 h2 h3
    have a := hY S (h1.trans h2)
    have b := hY T (h1.trans h3)
    exact unique hL (a.1.mono h2) (b.1.mono h3) (by rw [a.2, b.2]) t ⟨h1, le_rfl⟩
  refine ⟨fun t => Y (t + 1) t, (hY (0 + 1) (by norm_num)).2, ?_⟩
  intro T
  by_cases hT : 0 ≤ T
  · have hb := (hY T hT).1
    constructor
    · intro i
      apply (hb.cont i).congr
      intro t ht
      exact congrFun (hag _ _ t ht.1 (by linarith) ht.2) i
    · intro t ht i
      have hd := hb.deriv t ht i
      have e : Y (t + 1) t = Y T t := hag _ _ t ht.1.le (by linarith) ht.2.le
      rw [e]
      apply hd.congr_of_eventuallyEq
      filter_upwards [Ioo_mem_nhds ht.1 ht.2] with s hs
      exact congrFun (hag _ _ s hs.1.le (by linarith) hs.2.le) i
  · constructor
    · intro i
      rw [Icc_eq_empty hT]
      exact continuousOn_empty _
    · intro t ht
      exact absurd (ht.1.trans ht.2).le hT

end Verif.Flow
