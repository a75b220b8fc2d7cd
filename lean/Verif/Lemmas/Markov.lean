import Verif.Lemmas.Flow
import Mathlib.Logic.Relation
import Mathlib.Topology.Order.Compact
import Mathlib.Analysis.SpecialFunctions.Sqrt
/-
Jump processes on finitely many states: one stationary distribution, reached exponentially fast.
-/
namespace Verif.Flow
open Set Finset

variable {ι : Type} [Fintype ι]

/-- Gain less loss of every state. -/
def gainLoss (J : ι → ι → ℝ) (p : ι → ℝ) (i : ι) : ℝ := ∑ j, (p j * J j i - p i * J i j)

/-- Rates for which the weights are stationary and that lead from every state to every other. -/
structure JumpBalance (w : ι → ℝ) (J : ι → ι → ℝ) : Prop where
  pos : ∀ i, 0 < w i
  nonneg : ∀ i j, 0 ≤ J i j
  balance : ∀ i, gainLoss J w i = 0
  conn : ∀ i j, Relation.ReflTransGen (fun a b => 0 < J a b) i j

/-- Sum of the squared differences over the jumps. -/
def dirichlet (w : ι → ℝ) (J : ι → ι → ℝ) (x : ι → ℝ) : ℝ := ∑ i, ∑ j, w i * J i j * (x i - x j) ^ 2

theorem dirichlet_nonneg {w : ι → ℝ} {J : ι → ι → ℝ} (h : JumpBalance w J) (x : ι → ℝ) : 0 ≤ dirichlet w J x :=
  Finset.sum_nonneg fun i _ => Finset.sum_nonneg fun j _ => mul_nonneg (mul_nonneg (h.pos i).le (h.nonneg i j)) (sq_nonneg _)

theorem dirichlet_zero {w : ι → ℝ} {J : ι → ι → ℝ} (h : JumpBalance w J) {x : ι → ℝ} (h0 : dirichlet w J x = 0) (i j : ι) : x i = x j := by
  have h1 : ∀ a b, w a * J a b * (x a - x b) ^ 2 = 0 := by
    intro a b
    have n2 : ∀ a b, 0 ≤ w a * J a b * (x a - x b) ^ 2 := fun a b => mul_nonneg (mul_nonneg (h.pos a).le (h.nonneg a b)) (sq_nonneg _)
    have h2 := (Finset.sum_eq_zero_iff_of_nonneg fun i _ => Finset.sum_nonneg fun j _ => n2 i j).mp h0 a (Finset.mem_univ a)
    exact (Finset.sum_eq_zero_iff_of_nonneg fun j _ => n2 a j).mp h2 b (Finset.mem_univ b)
  induction h.conn i j with
  | refl => rfl
  | @tail a b _ hab ih =>
    rw [ih]
    have := h1 a b
    have hp : w a * J a b ≠ 0 := (mul_pos (h.pos a) hab).ne'
    have := (mul_eq_zero.mp this).resolve_left hp
    exact sub_eq_zero.mp (pow_eq_zero_iff (by norm_num) |>.mp this)

/-- The product of a function with what it gains: the sum over the jumps. -/
theorem sum_mul_gainLoss {w : ι → ℝ} {J : ι → ι → ℝ} (h : JumpBalance w J) (c : ℝ) (p : ι → ℝ) :
    ∑ i, (p i / w i - c) * gainLoss J p i = -(1 / 2) * dirichlet w J (fun i => p i / w i - c) := by
  set x : ι → ℝ := fun i => p i / w i - c with hx
  have hp : ∀ i, p i = w i * x i + c * w i := by
    intro i
    have := (h.pos i).ne'
    simp only [hx]
    field_simp
    ring
  have hg : ∀ i, gainLoss J p i = ∑ j, (w j * J j i * x j - w i * J i j * x i) := by
    intro i
    have h0 : ∑ j, (c * (w j * J j i - w i * J i j)) = 0 := by rw [← Finset.mul_sum]; rw [show ∑ j, (w j * J j i - w i * J i j) = 0 from h.balance i, mul_zero]
    have : gainLoss J p i = ∑ j, (w j * J j i * x j - w i * J i j * x i) + ∑ j, (c * (w j * J j i - w i * J i j)) := by
      rw [← Finset.sum_add_distrib]
      refine Finset.sum_congr rfl fun j _ => ?_
      rw [hp i, hp j]; ring
    rw [this, h0, add_zero]
  have h1 : ∑ i, x i * gainLoss J p i = ∑ i, ∑ j, w i * J i j * (x i * x j) - ∑ i, ∑ j, w i * J i j * x i ^ 2 := by
    have e : ∑ i, ∑ j, w i * J i j * (x i * x j) = ∑ i, ∑ j, w j * J j i * (x j * x i) := Finset.sum_comm
    rw [e, ← Finset.sum_sub_distrib]
    refine Finset.sum_congr rfl fun i _ => ?_
    rw [hg, Finset.mul_sum, ← Finset.sum_sub_distrib]
    refine Finset.sum_congr rfl fun j _ => ?_
    ring
  have h2 : ∑ i, ∑ j, w i * J i j * x i ^ 2 = ∑ i, ∑ j, w i * J i j * x j ^ 2 := by
    have e : ∑ i, ∑ j, w i * J i j * x j ^ 2 = ∑ i, ∑ j, w j * J j i * x i ^ 2 := Finset.sum_comm
    rw [e]
    refine Finset.sum_congr rfl fun i _ => ?_
    rw [← Finset.sum_mul, ← Finset.sum_mul]
    congr 1
    have := h.balance i
    unfold gainLoss at this
    rw [Finset.sum_sub_distrib, sub_eq_zero] at this
    exact this.symm
  have h3 : dirichlet w J x = (∑ i, ∑ j, w i * J i j * x i ^ 2) + (∑ i, ∑ j, w i * J i j * x j ^ 2) - 2 * ∑ i, ∑ j, w i * J i j * (x i * x j) := by
    unfold dirichlet
    rw [Finset.mul_sum, ← Finset.sum_add_distrib, ← Finset.sum_sub_distrib]
    refine Finset.sum_congr rfl fun i _ => ?_
    rw [Finset.mul_sum, ← Finset.sum_add_distrib, ← Finset.sum_sub_distrib]
    refine Finset.sum_congr rfl fun j _ => ?_
    ring
  show ∑ i, x i * gainLoss J p i = _
  rw [h1, h3, ← h2]; ring

/-- A stationary distribution is a multiple of the weights. -/
theorem stationary_multiple {w : ι → ℝ} {J : ι → ι → ℝ} (h : JumpBalance w J) {p : ι → ℝ} (h0 : ∀ i, gainLoss J p i = 0) (i j : ι) :
    p i / w i = p j / w j := by
  have h1 := sum_mul_gainLoss h 0 p
  simp only [h0, mul_zero, Finset.sum_const_zero, sub_zero] at h1
  exact dirichlet_zero h (by linarith) i j

/-- The weights are stationary. -/
theorem stationary_weights {w : ι → ℝ} {J : ι → ι → ℝ} (h : JumpBalance w J) (c : ℝ) (i : ι) : gainLoss J (fun i => c * w i) i = 0 := by
  have : gainLoss J (fun i => c * w i) i = c * gainLoss J w i := by
    unfold gainLoss
    rw [Finset.mul_sum]
    exact Finset.sum_congr rfl fun j _ => by ring
  rw [this, h.balance i, mul_zero]

/-- Weights that balance every jump are stationary. -/
theorem gainLoss_of_balance {w : ι → ℝ} {J : ι → ι → ℝ} (h : ∀ i j, w i * J i j = w j * J j i) (i : ι) : gainLoss J w i = 0 :=
  Finset.sum_eq_zero fun j _ => by rw [h j i, sub_self]

/-- The gap: functions without mean are bounded by their differences over the jumps. -/
theorem gap_exists {w : ι → ℝ} {J : ι → ι → ℝ} (h : JumpBalance w J) :
    ∃ l, 0 < l ∧ ∀ x : ι → ℝ, ∑ i, w i * x i = 0 → l * ∑ i, w i * x i ^ 2 ≤ dirichlet w J x := by
  let K : Set (ι → ℝ) := {x | ∑ i, w i * x i = 0 ∧ ∑ i, w i * x i ^ 2 = 1}
  have hcl : IsClosed K := (isClosed_eq (by fun_prop) continuous_const).inter (isClosed_eq (by fun_prop) continuous_const)
  have hb : Bornology.IsBounded K := by
    rw [isBounded_iff_forall_norm_le]
    refine ⟨∑ i, √(1 / w i), ?_⟩
    rintro x ⟨-, hx⟩
    rw [pi_norm_le_iff_of_nonneg (Finset.sum_nonneg fun i _ => Real.sqrt_nonneg _)]
    intro i
    refine le_trans ?_ (Finset.single_le_sum (f := fun i => √(1 / w i)) (fun i _ => Real.sqrt_nonneg _) (Finset.mem_univ i))
    have h1 : w i * x i ^ 2 ≤ 1 := by
      rw [← hx]
      exact Finset.single_le_sum (f := fun i => w i * x i ^ 2) (fun j _ => mul_nonneg (h.pos j).le (sq_nonneg _)) (Finset.mem_univ i)
    apply Real.le_sqrt_of_sq_le
    rw [Real.norm_eq_abs, sq_abs, le_div_iff₀ (h.pos i), mul_comm]
    exact h1
  have hK : IsCompact K := Metric.isCompact_of_isClosed_isBounded hcl hb
  have hD : Continuous (dirichlet w J) := by unfold dirichlet; fun_prop
  have hscale : ∀ (x : ι → ℝ) (c : ℝ), dirichlet w J (fun i => c * x i) = c ^ 2 * dirichlet w J x := by
    intro x c
    unfold dirichlet
    rw [Finset.mul_sum]
    refine Finset.sum_congr rfl fun i _ => ?_
    rw [Finset.mul_sum]
    refine Finset.sum_congr rfl fun j _ => ?_
    ring
  -- enough: a bound on the sphere
  have fin : ∀ l, 0 < l → (∀ x ∈ K, l ≤ dirichlet w J x) → ∀ x : ι → ℝ, ∑ i, w i * x i = 0 → l * ∑ i, w i * x i ^ 2 ≤ dirichlet w J x := by
    intro l _ hlK x hx
    set s := ∑ i, w i * x i ^ 2 with hs
    have hs0 : 0 ≤ s := Finset.sum_nonneg fun j _ => mul_nonneg (h.pos j).le (sq_nonneg _)
    rcases hs0.eq_or_lt with h0 | h0
    · rw [← h0, mul_zero]; exact dirichlet_nonneg h x
    have hq := Real.sqrt_pos.mpr h0
    have hq2 : (√s)⁻¹ ^ 2 * s = 1 := by
      rw [inv_pow, Real.sq_sqrt hs0]; exact inv_mul_cancel₀ h0.ne'
    have hm : (fun i => (√s)⁻¹ * x i) ∈ K := by
      constructor
      · show ∑ i, w i * ((√s)⁻¹ * x i) = 0
        rw [Finset.sum_congr rfl fun i _ => mul_left_comm _ _ _, ← Finset.mul_sum, hx, mul_zero]
      · show ∑ i, w i * ((√s)⁻¹ * x i) ^ 2 = 1
        rw [Finset.sum_congr rfl fun i _ => show w i * ((√s)⁻¹ * x i) ^ 2 = (√s)⁻¹ ^ 2 * (w i * x i ^ 2) from by ring, ← Finset.mul_sum]
        exact hq2
    have := hlK _ hm
    rw [hscale] at this
    have h3 := mul_le_mul_of_nonneg_left this hs0
    calc l * s = s * l := mul_comm _ _
      _ ≤ _ := h3
      _ = (√s)⁻¹ ^ 2 * s * dirichlet w J x := by ring
      _ = _ := by rw [hq2, one_mul]
  rcases K.eq_empty_or_nonempty with he | hne
  · exact ⟨1, one_pos, fin 1 one_pos fun x hx => absurd hx (by rw [he]; exact Set.notMem_empty x)⟩
  · obtain ⟨x0, hx0, hmin⟩ := hK.exists_isMinOn hne hD.continuousOn
    have hpos : 0 < dirichlet w J x0 := by
      refine (dirichlet_nonneg h x0).lt_of_ne fun e => ?_
      have hconst := dirichlet_zero h e.symm
      obtain ⟨h1, h2⟩ := hx0
      have hz : ∀ i, x0 i = 0 := by
        intro i
        have : (∑ j, w j) * x0 i = 0 := by
          rw [Finset.sum_mul, ← h1]
          exact Finset.sum_congr rfl fun j _ => by rw [hconst i j]
        refine (mul_eq_zero.mp this).resolve_left ?_
        exact (Finset.sum_pos (fun j _ => h.pos j) ⟨i, Finset.mem_univ i⟩).ne'
      simp [hz] at h2
    exact ⟨_, hpos, fin _ hpos fun x hx => hmin hx⟩

theorem gainLoss_sum (J : ι → ι → ℝ) (p : ι → ℝ) : ∑ i, gainLoss J p i = 0 := by
  unfold gainLoss
  simp only [Finset.sum_sub_distrib]
  rw [Finset.sum_comm, sub_self]

/-- Every solution approaches the multiple of the weights with the same sum, exponentially fast. -/
theorem forgets {w : ι → ℝ} {J : ι → ι → ℝ} (h : JumpBalance w J) : ∃ l, 0 < l ∧
    ∀ p : ℝ → ι → ℝ, (∀ T, Solves (gainLoss J) T p) → ∃ A, 0 ≤ A ∧ ∀ t, 0 ≤ t → ∀ i,
      |p t i - (∑ j, p 0 j) / (∑ j, w j) * w i| ≤ A * Real.exp (-l * t) := by
  obtain ⟨l, hl, hgap⟩ := gap_exists h
  refine ⟨l / 2, by positivity, ?_⟩
  intro p hp
  have hsum : ∀ t, 0 ≤ t → ∑ i, p t i = ∑ i, p 0 i := by
    intro t ht
    have := conserved (G := gainLoss J) (fun _ => 1) (fun y => by simpa using gainLoss_sum J y) (hp t) t ⟨ht, le_rfl⟩
    simpa using this
  set c := (∑ j, p 0 j) / (∑ j, w j) with hc
  set V : ℝ → ℝ := fun t => ∑ i, w i * (p t i / w i - c) ^ 2 with hV
  have hmean : ∀ t, 0 ≤ t → ∑ i, w i * (p t i / w i - c) = 0 := by
    intro t ht
    rcases isEmpty_or_nonempty ι with he | ⟨⟨i0⟩⟩
    · simp
    have hW : (∑ j, w j) ≠ 0 := (Finset.sum_pos (fun j _ => h.pos j) ⟨i0, Finset.mem_univ i0⟩).ne'
    have : ∀ i, w i * (p t i / w i - c) = p t i - c * w i := by
      intro i
      have := (h.pos i).ne'
      field_simp
    simp only [this]
    rw [Finset.sum_sub_distrib, ← Finset.mul_sum, hsum t ht, hc, div_mul_cancel₀ _ hW, sub_self]
  have hdec : ∀ t, 0 ≤ t → V t ≤ V 0 * Real.exp (-l * t) := by
    intro t ht
    refine gronwall (V := V) (C := -l) (T := t) ?_ ?_ t ⟨ht, le_rfl⟩
    · apply continuousOn_finsetSum
      intro i _
      have := (hp t).cont i
      fun_prop
    · intro τ hτ
      refine ⟨∑ i, 2 * ((p τ i / w i - c) * gainLoss J (p τ) i), ?_, ?_⟩
      · apply HasDerivAt.fun_sum
        intro i _
        have h1 := ((((hp t).deriv τ hτ i).div_const (w i)).sub_const c).pow 2 |>.const_mul (w i)
        have hi := (h.pos i).ne'
        have e : w i * (((2 : ℕ) : ℝ) * (p τ i / w i - c) ^ (2 - 1) * (gainLoss J (p τ) i / w i)) = 2 * ((p τ i / w i - c) * gainLoss J (p τ) i) := by
          rw [show 2 - 1 = 1 from rfl, pow_one]
          push_cast
          field_simp
        rw [e] at h1
        exact h1
      · rw [← Finset.mul_sum, sum_mul_gainLoss h]
        have := hgap (fun i => p τ i / w i - c) (hmean τ hτ.1.le)
        show _ ≤ -l * ∑ i, w i * (p τ i / w i - c) ^ 2
        linarith
  refine ⟨∑ i, √(w i * V 0), Finset.sum_nonneg fun i _ => Real.sqrt_nonneg _, ?_⟩
  intro t ht i
  have h1 : w i * (p t i / w i - c) ^ 2 ≤ V 0 * Real.exp (-l * t) :=
    (Finset.single_le_sum (f := fun i => w i * (p t i / w i - c) ^ 2) (fun j _ => mul_nonneg (h.pos j).le (sq_nonneg _)) (Finset.mem_univ i)).trans (hdec t ht)
  have hV0 : 0 ≤ V 0 := Finset.sum_nonneg fun j _ => mul_nonneg (h.pos j).le (sq_nonneg _)
  have h2 : (p t i - c * w i) ^ 2 ≤ w i * V 0 * Real.exp (-l * t) := by
    have hi := (h.pos i).ne'
    calc (p t i - c * w i) ^ 2 = w i * (w i * (p t i / w i - c) ^ 2) := by field_simp
      _ ≤ w i * (V 0 * Real.exp (-l * t)) := mul_le_mul_of_nonneg_left h1 (h.pos i).le
      _ = _ := by ring
  have h3 : √(w i * V 0) * Real.exp (-(l / 2) * t) ≤ (∑ i, √(w i * V 0)) * Real.exp (-(l / 2) * t) :=
    mul_le_mul_of_nonneg_right (Finset.single_le_sum (f := fun i => √(w i * V 0)) (fun j _ => Real.sqrt_nonneg _) (Finset.mem_univ i)) (Real.exp_pos _).le
  refine le_trans ?_ h3
  apply abs_le_of_sq_le_sq _ (by positivity)
  rw [mul_pow, Real.sq_sqrt (mul_nonneg (h.pos i).le hV0), ← Real.exp_nat_mul]
  rw [show ((2 : ℕ) : ℝ) * (-(l / 2) * t) = -l * t from by push_cast; ring]
  exact h2

theorem gainLoss_lip (J : ι → ι → ℝ) : Lip (gainLoss J) := by
  apply lip_of_contDiff
  unfold gainLoss
  fun_prop

theorem gainLoss_inward {J : ι → ι → ℝ} (h : ∀ i j, 0 ≤ J i j) : Inward (gainLoss J) := by
  intro y hy i hi
  refine Finset.sum_nonneg fun j _ => ?_
  rw [hi, zero_mul, sub_zero]
  exact mul_nonneg (hy j) (h j i)

/-- From every beginning there is one solution, and it stays a distribution. -/
theorem gainLoss_exists {J : ι → ι → ℝ} (h : ∀ i j, 0 ≤ J i j) (p0 : ι → ℝ) (h0 : ∀ i, 0 ≤ p0 i) :
    ∃ p, p 0 = p0 ∧ (∀ T, Solves (gainLoss J) T p) ∧ (∀ t, 0 ≤ t → ∀ i, 0 ≤ p t i) ∧ ∀ t, 0 ≤ t → ∑ i, p t i = ∑ i, p0 i := by
  obtain ⟨p, hp, hs⟩ := exist_global (gainLoss_lip J) (gainLoss_inward h) (gainLoss_sum J) p0 h0
  refine ⟨p, hp, hs, ?_, ?_⟩
  · intro t ht
    exact nonneg (gainLoss_lip J) (gainLoss_inward h) (hs t) (by rw [hp]; exact h0) t ⟨ht, le_rfl⟩
  · intro t ht
    have := conserved (G := gainLoss J) (fun _ => 1) (fun y => by simpa using gainLoss_sum J y) (hs t) t ⟨ht, le_rfl⟩
    rw [← hp]
    simpa using this

/-- There are stationary weights, and they are positive. -/
theorem stationary_exists [Nonempty ι] {J : ι → ι → ℝ} (hJ : ∀ i j, 0 ≤ J i j)
    (hc : ∀ i j, Relation.ReflTransGen (fun a b => 0 < J a b) i j) : ∃ w, JumpBalance w J := by
  let L : (ι → ℝ) →ₗ[ℝ] (ι → ℝ) :=
    { toFun := gainLoss J
      map_add' := fun p q => by
        funext i
        show gainLoss J (p + q) i = gainLoss J p i + gainLoss J q i
        unfold gainLoss
        rw [← Finset.sum_add_distrib]
        exact Finset.sum_congr rfl fun j _ => by simp only [Pi.add_apply]; ring
      map_smul' := fun c p => by
        funext i
        show gainLoss J (c • p) i = c * gainLoss J p i
        unfold gainLoss
        rw [Finset.mul_sum]
        exact Finset.sum_congr rfl fun j _ => by simp only [Pi.smul_apply, smul_eq_mul]; ring }
  have hns : ¬ Function.Surjective L := by
    intro hs
    obtain ⟨p, hp⟩ := hs fun _ => 1
    have h1 := gainLoss_sum J p
    have h2 : ∀ i, gainLoss J p i = 1 := fun i => congrFun hp i
    simp only [h2, Finset.sum_const, Finset.card_univ, nsmul_eq_mul, mul_one] at h1
    exact Fintype.card_ne_zero (α := ι) (by exact_mod_cast h1)
  have hni : ¬ Function.Injective L := fun hi => hns (LinearMap.injective_iff_surjective.mp hi)
  obtain ⟨p, hp, hp0⟩ : ∃ p, gainLoss J p = 0 ∧ p ≠ 0 := by
    by_contra hno
    push Not at hno
    exact hni ((injective_iff_map_eq_zero L).mpr fun p hp => hno p hp)
  -- the absolute values are stationary as well
  have hle : ∀ i, 0 ≤ gainLoss J (fun i => |p i|) i := by
    intro i
    have h1 : ∑ j, p j * J j i = p i * ∑ j, J i j := by
      have := congrFun hp i
      unfold gainLoss at this
      rw [Finset.sum_sub_distrib, ← Finset.mul_sum] at this
      exact sub_eq_zero.mp this
    have h2 : |p i| * ∑ j, J i j ≤ ∑ j, |p j| * J j i := by
      calc |p i| * ∑ j, J i j = |p i * ∑ j, J i j| := by rw [abs_mul, abs_of_nonneg (Finset.sum_nonneg fun j _ => hJ i j)]
        _ = |∑ j, p j * J j i| := by rw [h1]
        _ ≤ ∑ j, |p j * J j i| := Finset.abs_sum_le_sum_abs _ _
        _ = _ := Finset.sum_congr rfl fun j _ => by rw [abs_mul, abs_of_nonneg (hJ j i)]
    unfold gainLoss
    rw [Finset.sum_sub_distrib, ← Finset.mul_sum]
    linarith
  have hst : ∀ i, gainLoss J (fun i => |p i|) i = 0 := fun i =>
    (Finset.sum_eq_zero_iff_of_nonneg fun i _ => hle i).mp (gainLoss_sum J _) i (Finset.mem_univ i)
  -- a state without weight has no predecessor with weight
  have hback : ∀ i j, 0 < J i j → p j = 0 → p i = 0 := by
    intro i j hij hj
    have h1 := hst j
    unfold gainLoss at h1
    simp only [hj, abs_zero, zero_mul, sub_zero] at h1
    have h2 := (Finset.sum_eq_zero_iff_of_nonneg fun k _ => mul_nonneg (abs_nonneg (p k)) (hJ k j)).mp h1 i (Finset.mem_univ i)
    exact abs_eq_zero.mp ((mul_eq_zero.mp h2).resolve_right hij.ne')
  refine ⟨fun i => |p i|, fun i => abs_pos.mpr fun hi => hp0 ?_, hJ, hst, hc⟩
  funext k
  show p k = 0
  have : ∀ a b, Relation.ReflTransGen (fun a b => 0 < J a b) a b → p b = 0 → p a = 0 := by
    intro a b hab
    induction hab with
    | refl => exact id
    | tail _ h ih => exact fun hb => ih (hback _ _ h hb)
  exact this k i (hc k i) hi

end Verif.Flow
