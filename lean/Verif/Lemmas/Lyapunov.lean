import Verif.Lemmas.Flow
import Mathlib.Analysis.SpecialFunctions.Log.NegMulLog
/-
Helpers for property C96: a Lyapunov function for differential equations with a detailed-balanced
rest point, and convergence to it.
-/
namespace Verif.Flow
open Set (Icc Ioo)
open Filter Topology

/-- Relative entropy of one coordinate. -/
noncomputable def ell (a x : ℝ) : ℝ := x * Real.log (x / a) - x + a

theorem ell_ge {a x : ℝ} (ha : 0 < a) (hx : 0 ≤ x) : (√x - √a) ^ 2 ≤ ell a x := by
  unfold ell
  rcases hx.eq_or_lt with rfl | hx
  · simp [Real.sq_sqrt ha.le]
  · have h1 := Real.sq_sqrt ha.le
    have h2 := Real.sq_sqrt hx.le
    have p1 := Real.sqrt_pos.mpr ha
    have p2 := Real.sqrt_pos.mpr hx
    have hlog : Real.log (√a / √x) ≤ √a / √x - 1 := Real.log_le_sub_one_of_pos (div_pos p1 p2)
    have e : Real.log (x / a) = - (2 * Real.log (√a / √x)) := by
      rw [Real.log_div hx.ne' ha.ne', Real.log_div p1.ne' p2.ne', Real.log_sqrt ha.le, Real.log_sqrt hx.le]
      ring
    rw [e]
    have e2 : x * (√a / √x) = √a * √x := by
      field_simp
      nlinarith
    nlinarith

theorem ell_self {a : ℝ} (ha : 0 < a) : ell a a = 0 := by
  unfold ell
  rw [div_self ha.ne', Real.log_one]
  ring

theorem ell_continuous {a : ℝ} (ha : 0 < a) : Continuous (ell a) := by
  have h : ell a = fun x => a * ((x / a) * Real.log (x / a)) - x + a := by
    funext x
    unfold ell
    field_simp
  rw [h]
  have := Real.continuous_mul_log
  have h2 : Continuous fun x : ℝ => (x / a) * Real.log (x / a) := this.comp (continuous_id.div_const a)
  fun_prop

theorem gap {x y : ℝ} (hx : 0 < x) (hy : 0 < y) : (√x - √y) ^ 2 ≤ (x - y) * (Real.log x - Real.log y) := by
  wlog h : y ≤ x with H
  · have := H hy hx (not_le.mp h).le
    nlinarith
  have h1 := Real.sq_sqrt hx.le
  have h2 := Real.sq_sqrt hy.le
  have p1 := Real.sqrt_pos.mpr hx
  have p2 := Real.sqrt_pos.mpr hy
  have hs : √y ≤ √x := Real.sqrt_le_sqrt h
  have hlog : 1 - y / x ≤ Real.log x - Real.log y := by
    have := Real.log_le_sub_one_of_pos (div_pos hy hx)
    rw [Real.log_div hy.ne' hx.ne'] at this
    linarith
  have hl : (x - y) * (1 - y / x) ≤ (x - y) * (Real.log x - Real.log y) :=
    mul_le_mul_of_nonneg_left hlog (by linarith)
  refine le_trans ?_ hl
  rw [show (x - y) * (1 - y / x) = (x - y) ^ 2 / x by field_simp]
  rw [le_div_iff₀ hx]
  have e : (x - y) = (√x - √y) * (√x + √y) := by nlinarith
  rw [e, mul_pow]
  apply mul_le_mul_of_nonneg_left _ (sq_nonneg _)
  nlinarith

theorem gap_eq {x y : ℝ} (hx : 0 < x) (hy : 0 < y) (h : (x - y) * (Real.log x - Real.log y) = 0) : x = y := by
  have := gap hx hy
  rw [h] at this
  have h0 : √x - √y = 0 := by
    have := le_antisymm this (sq_nonneg _)
    exact pow_eq_zero_iff (two_ne_zero) |>.mp this
  exact (Real.sqrt_inj hx.le hy.le).mp (by linarith)

variable {ι : Type} [Fintype ι]

/-- Relative entropy. -/
noncomputable def lyap (s y : ι → ℝ) : ℝ := ∑ i, ell (s i) (y i)

theorem lyap_continuous {s : ι → ℝ} (hs : ∀ i, 0 < s i) : Continuous (lyap s) := by
  unfold lyap
  apply continuous_finsetSum
  intro i _
  exact (ell_continuous (hs i)).comp (continuous_apply i)

theorem ell_nonneg {a x : ℝ} (ha : 0 < a) (hx : 0 ≤ x) : 0 ≤ ell a x := (sq_nonneg _).trans (ell_ge ha hx)

theorem ell_le_lyap {s y : ι → ℝ} (hs : ∀ i, 0 < s i) (hy : ∀ i, 0 ≤ y i) (i : ι) : ell (s i) (y i) ≤ lyap s y :=
  Finset.single_le_sum (f := fun i => ell (s i) (y i)) (fun i _ => ell_nonneg (hs i) (hy i)) (Finset.mem_univ i)

theorem lyap_nonneg {s y : ι → ℝ} (hs : ∀ i, 0 < s i) (hy : ∀ i, 0 ≤ y i) : 0 ≤ lyap s y :=
  Finset.sum_nonneg fun i _ => ell_nonneg (hs i) (hy i)

theorem lyap_self {s : ι → ℝ} (hs : ∀ i, 0 < s i) : lyap s s = 0 :=
  Finset.sum_eq_zero fun i _ => ell_self (hs i)

/-- What dissipates at least at a given speed. -/
theorem lyap_falls {G : (ι → ℝ) → ι → ℝ} {s : ι → ℝ} (hs : ∀ i, 0 < s i) {T : ℝ} {y : ℝ → ι → ℝ} (h : Solves G T y)
    (hy : ∀ t ∈ Icc 0 T, ∀ i, 0 < y t i) (c : ℝ)
    (hd : ∀ t ∈ Ioo 0 T, ∑ i, G (y t) i * Real.log (y t i / s i) ≤ -c) :
    AntitoneOn (fun t => lyap s (y t) + c * t) (Icc 0 T) := by
  have hder : ∀ t ∈ Ioo 0 T, HasDerivAt (fun t => lyap s (y t) + c * t) (∑ i, G (y t) i * Real.log (y t i / s i) + c) t := by
    intro t ht
    have h2 : HasDerivAt (fun t : ℝ => c * t) c t := by simpa using (hasDerivAt_id t).const_mul c
    refine HasDerivAt.fun_add ?_ h2
    unfold lyap
    apply HasDerivAt.fun_sum
    intro i _
    have h1 := h.deriv t ht i
    have hp := hy t ⟨ht.1.le, ht.2.le⟩ i
    have hl := (h1.div_const (s i)).log (div_pos hp (hs i)).ne'
    have := ((h1.fun_mul hl).fun_sub h1).add_const (s i)
    have e : G (y t) i * Real.log (y t i / s i)
        = G (y t) i * Real.log (y t i / s i) + y t i * (G (y t) i / s i / (y t i / s i)) - G (y t) i := by
      have := (hs i).ne'
      field_simp
      ring
    rw [e]
    exact this
  have hcont : ContinuousOn (fun t => lyap s (y t) + c * t) (Icc 0 T) := by
    apply ContinuousOn.add
    · unfold lyap
      apply continuousOn_finsetSum
      intro i _
      exact (ell_continuous (hs i)).comp_continuousOn (h.cont i)
    · fun_prop
  apply antitoneOn_of_deriv_nonpos (convex_Icc 0 T) hcont
  · intro t ht
    rw [interior_Icc] at ht
    exact (hder t ht).differentiableAt.differentiableWithinAt
  · intro t ht
    rw [interior_Icc] at ht
    rw [(hder t ht).deriv]
    linarith [hd t ht]

/-- What makes a rest point attracting. -/
structure Attracting (G : (ι → ℝ) → ι → ℝ) (s : ι → ℝ) (W : (ι → ℝ) → Prop) (D : (ι → ℝ) → ℝ) : Prop where
  pos : ∀ i, 0 < s i
  cont : Continuous D
  nonneg : ∀ y, (∀ i, 0 ≤ y i) → 0 ≤ D y
  diss : ∀ y, (∀ i, 0 < y i) → ∑ i, G y i * Real.log (y i / s i) ≤ - D y
  cons : ∀ w, W w → ∀ y, ∑ i, w i * G y i = 0

theorem Attracting.converges {G : (ι → ℝ) → ι → ℝ} {s : ι → ℝ} {W : (ι → ℝ) → Prop} {D : (ι → ℝ) → ℝ} (h : Attracting G s W D)
    {y : ℝ → ι → ℝ} (hy : ∀ T, Solves G T y) (hpos : ∀ t, 0 ≤ t → ∀ i, 0 < y t i)
    (h0 : ∀ w, W w → ∑ i, w i * y 0 i = ∑ i, w i * s i)
    (huniq : ∀ z, (∀ i, 0 ≤ z i) → (∀ w, W w → ∑ i, w i * z i = ∑ i, w i * s i) → lyap s z ≤ lyap s (y 0) → D z = 0 → z = s) (i : ι) :
    Tendsto (fun t => y t i) atTop (𝓝 (s i)) := by
  have hmono : ∀ a b, 0 ≤ a → a ≤ b → lyap s (y b) ≤ lyap s (y a) := by
    intro a b ha hab
    have := lyap_falls h.pos (hy b) (fun t ht => hpos t ht.1) 0 (fun t ht => by
      have h1 := h.diss (y t) (hpos t ht.1.le)
      have h2 := h.nonneg (y t) (fun i => (hpos t ht.1.le i).le)
      linarith) ⟨ha, hab⟩ ⟨ha.trans hab, le_rfl⟩ hab
    simpa using this
  have hcons : ∀ t, 0 ≤ t → ∀ w, W w → ∑ i, w i * y t i = ∑ i, w i * s i := by
    intro t ht w hw
    rw [conserved w (h.cons w hw) (hy t) t ⟨ht, le_rfl⟩, h0 w hw]
  have hsmall : ∀ ε > 0, ∃ T, 0 ≤ T ∧ lyap s (y T) < ε := by
    intro ε hε
    by_contra hno
    push Not at hno
    let K : Set (ι → ℝ) := {z | (∀ i, 0 ≤ z i) ∧ (∀ w, W w → ∑ i, w i * z i = ∑ i, w i * s i) ∧
      lyap s z ≤ lyap s (y 0) ∧ ε ≤ lyap s z}
    have hclosed : IsClosed K := by
      refine IsClosed.and ?_ (IsClosed.and ?_ (IsClosed.and ?_ ?_))
      · simp only [Set.ofPred_forall]
        exact isClosed_iInter fun i => isClosed_le continuous_const (continuous_apply i)
      · simp only [Set.ofPred_forall]
        refine isClosed_iInter fun w => isClosed_iInter fun _ => isClosed_eq ?_ continuous_const
        exact continuous_finsetSum _ fun i _ => continuous_const.mul (continuous_apply i)
      · exact isClosed_le (lyap_continuous h.pos) continuous_const
      · exact isClosed_le continuous_const (lyap_continuous h.pos)
    have hbdd : ∀ z ∈ K, ∀ i, z i ≤ (√(s i) + √(lyap s (y 0))) ^ 2 := by
      rintro z ⟨z1, -, z3, -⟩ i
      have h1 := (ell_ge (h.pos i) (z1 i)).trans ((ell_le_lyap h.pos z1 i).trans z3)
      have h2 : √(z i) - √(s i) ≤ √(lyap s (y 0)) := Real.le_sqrt_of_sq_le h1
      have h3 := Real.sq_sqrt (z1 i)
      have h4 := Real.sqrt_nonneg (z i)
      have h5 : √(z i) ≤ √(s i) + √(lyap s (y 0)) := by linarith
      rw [← h3]
      exact pow_le_pow_left₀ h4 h5 2
    have hcomp : IsCompact K := by
      apply IsCompact.of_isClosed_subset (isCompact_univ_pi fun i : ι =>
        isCompact_Icc (a := (0 : ℝ)) (b := (√(s i) + √(lyap s (y 0))) ^ 2)) hclosed
      intro z hz i _
      exact ⟨hz.1 i, hbdd z hz i⟩
    have hmem : ∀ t, 0 ≤ t → y t ∈ K := fun t ht =>
      ⟨fun i => (hpos t ht i).le, hcons t ht, hmono 0 t le_rfl ht, hno t ht⟩
    obtain ⟨z, hz, hmin⟩ := hcomp.exists_isMinOn ⟨y 0, hmem 0 le_rfl⟩ h.cont.continuousOn
    have hDz : 0 < D z := by
      rcases (h.nonneg z hz.1).eq_or_lt with e | e
      · have := huniq z hz.1 hz.2.1 hz.2.2.1 e.symm
        have h4 := hz.2.2.2
        rw [this, lyap_self h.pos] at h4
        linarith
      · exact e
    set T := (lyap s (y 0) + 1) / D z with hT
    have hL0 : 0 ≤ lyap s (y 0) := lyap_nonneg h.pos fun i => (hpos 0 le_rfl i).le
    have hT0 : 0 ≤ T := by positivity
    have := lyap_falls h.pos (hy T) (fun t ht => hpos t ht.1) (D z) (fun t ht => by
      have h1 := h.diss (y t) (hpos t ht.1.le)
      have h2 : D z ≤ D (y t) := hmin (hmem t ht.1.le)
      linarith) ⟨le_rfl, hT0⟩ ⟨hT0, le_rfl⟩ hT0
    have hDT : D z * T = lyap s (y 0) + 1 := by rw [hT]; field_simp
    have h3 := hno T hT0
    simp only [mul_zero, add_zero] at this
    linarith
  have hsq : Tendsto (fun t => √(y t i)) atTop (𝓝 √(s i)) := by
    rw [Metric.tendsto_atTop]
    intro ε hε
    obtain ⟨T, hT0, hT⟩ := hsmall (ε ^ 2) (by positivity)
    refine ⟨T, fun t ht => ?_⟩
    have hp := hpos t (hT0.trans ht)
    have h1 := (ell_ge (h.pos i) (hp i).le).trans ((ell_le_lyap h.pos (fun i => (hp i).le) i).trans (hmono T t hT0 ht))
    rw [Real.dist_eq]
    exact abs_lt_of_sq_lt_sq (h1.trans_lt hT) hε.le
  have := hsq.pow 2
  rw [Real.sq_sqrt (h.pos i).le] at this
  refine this.congr' ?_
  filter_upwards [eventually_ge_atTop 0] with t ht
  exact Real.sq_sqrt (hpos t ht i).le

end Verif.Flow
