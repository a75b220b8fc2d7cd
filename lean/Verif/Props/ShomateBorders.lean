import Verif.Props.Shomate
import Mathlib.Analysis.Complex.ExponentialBounds
/-
C83: what happens at the limits of the ranges. The published functions of neighbouring ranges agree there; the correction does
not.
-/
namespace Verif
open scoped Topology

/-- The enthalpy (kJ/mol) relative to 298.15 K, as published with the data. -/
noncomputable def enthalpyOf (p : ShomateParams) (T : ℝ) : ℝ :=
  p.A * (T / 1000) + p.B * (T / 1000) ^ 2 / 2 + p.C * (T / 1000) ^ 3 / 3 + p.D * (T / 1000) ^ 4 / 4 - p.E / (T / 1000) + p.F - p.H

/-- Bounds of a logarithm by the first terms of its series. -/
theorem log_bounds (x : ℝ) (h0 : 0 ≤ x) (h : x < 1) :
    2 * (x + x ^ 3 / 3 + x ^ 5 / 5) ≤ Real.log ((1 + x) / (1 - x)) ∧
    Real.log ((1 + x) / (1 - x)) ≤ 2 * (x + x ^ 3 / 3 + x ^ 5 / 5 + x ^ 7 / (1 - x ^ 2)) := by
  have h1 := Real.sum_range_le_log_div h0 h 3
  have h2 := Real.log_div_le_sum_range_add h0 h 3
  norm_num [Finset.sum_range_succ] at h1 h2
  constructor <;> linarith

/-- The limits of ranges with another range above them, with bounds of the logarithm. -/
def logTable : List (ℚ × ℚ × ℚ) :=
  [(1000, 0, 0), (2500, 9162 / 10000, 9164 / 10000), (1300, 26236 / 100000, 26237 / 100000), (500, -69315 / 100000, -69314 / 100000),
   (1700, 5306 / 10000, 5307 / 10000), (1200, 18232 / 100000, 18233 / 100000), (700, -35670 / 100000, -35660 / 100000), (2000, 69314 / 100000, 69315 / 100000)]

theorem logTable_ok : ∀ r ∈ logTable, (r.2.1 : ℝ) ≤ Real.log ((r.1 : ℝ) / 1000) ∧ Real.log ((r.1 : ℝ) / 1000) ≤ (r.2.2 : ℝ) := by
  have l2 := Real.log_two_gt_d9
  have l2' := Real.log_two_lt_d9
  have l13 := log_bounds (3 / 23) (by norm_num) (by norm_num)
  have l12 := log_bounds (1 / 11) (by norm_num) (by norm_num)
  have l125 := log_bounds (1 / 9) (by norm_num) (by norm_num)
  have l85 := log_bounds (3 / 37) (by norm_num) (by norm_num)
  have l7 := log_bounds (3 / 17) (by norm_num) (by norm_num)
  norm_num at l13 l12 l125 l85 l7
  have e25 : Real.log (5 / 2) = Real.log 2 + Real.log (5 / 4) := by rw [← Real.log_mul (by norm_num) (by norm_num)]; norm_num
  have e17 : Real.log (17 / 10) = Real.log 2 - Real.log (20 / 17) := by rw [← Real.log_div (by norm_num) (by norm_num)]; norm_num
  have e5 : Real.log (1 / 2) = - Real.log 2 := by rw [← Real.log_inv]; norm_num
  have e7 : Real.log (7 / 10) = - Real.log (10 / 7) := by rw [← Real.log_inv]; norm_num
  intro r hr
  simp only [logTable, List.mem_cons, List.not_mem_nil, or_false] at hr
  rcases hr with rfl | rfl | rfl | rfl | rfl | rfl | rfl | rfl <;> norm_num [e25, e17, e5, e7] <;> constructor <;> linarith

/-- What the entropies of two sets of parameters differ by, apart from the logarithm. -/
def entropyRest (p : ShomateParams) (T : ℚ) : ℚ :=
  p.B * (T / 1000) + p.C * (T / 1000) ^ 2 / 2 + p.D * (T / 1000) ^ 3 / 3 - p.E / (2 * (T / 1000) ^ 2) + p.G

def heatQ (p : ShomateParams) (T : ℚ) : ℚ :=
  p.A + p.B * (T / 1000) + p.C * (T / 1000) ^ 2 + p.D * (T / 1000) ^ 3 + p.E / (T / 1000) ^ 2

def enthalpyQ (p : ShomateParams) (T : ℚ) : ℚ :=
  p.A * (T / 1000) + p.B * (T / 1000) ^ 2 / 2 + p.C * (T / 1000) ^ 3 / 3 + p.D * (T / 1000) ^ 4 / 4 - p.E / (T / 1000) + p.F - p.H

theorem borders_checked : ∀ a ∈ shomateTable, ∀ b ∈ shomateTable, a.1 = b.1 → a.2.2.1 = b.2.1 →
    |heatQ b.2.2.2 b.2.1 - heatQ a.2.2.2 b.2.1| ≤ 1 / 5 ∧ |enthalpyQ b.2.2.2 b.2.1 - enthalpyQ a.2.2.2 b.2.1| ≤ 1 / 20 ∧
    ∃ r ∈ logTable, r.1 = b.2.1 ∧
      |(b.2.2.2.A - a.2.2.2.A) * r.2.1 + (entropyRest b.2.2.2 b.2.1 - entropyRest a.2.2.2 b.2.1)| +
        |b.2.2.2.A - a.2.2.2.A| * (r.2.2 - r.2.1) ≤ 1 / 50 := by
  decide +kernel

/-- **C83** Where two ranges of a gas meet, the published heat capacities agree to 0.2 J/mol K, the enthalpies to 0.05 kJ/mol and the
entropies to 0.02 J/mol K. -/
theorem C83_borders (a b : Str × ℚ × ℚ × ShomateParams) (ha : a ∈ shomateTable) (hb : b ∈ shomateTable) (hn : a.1 = b.1)
    (ht : a.2.2.1 = b.2.1) :
    |heatCapacity b.2.2.2 b.2.1 - heatCapacity a.2.2.2 b.2.1| ≤ 1 / 5 ∧
    |enthalpyOf b.2.2.2 b.2.1 - enthalpyOf a.2.2.2 b.2.1| ≤ 1 / 20 ∧
    |entropyOf b.2.2.2 b.2.1 - entropyOf a.2.2.2 b.2.1| ≤ 1 / 50 := by
  obtain ⟨h1, h2, r, hr, hrb, h3⟩ := borders_checked a ha b hb hn ht
  refine ⟨?_, ?_, ?_⟩
  · have : ((|heatQ b.2.2.2 b.2.1 - heatQ a.2.2.2 b.2.1| : ℚ) : ℝ) ≤ ((1 / 5 : ℚ) : ℝ) := by exact_mod_cast h1
    unfold heatQ at this
    push_cast at this
    exact this
  · have : ((|enthalpyQ b.2.2.2 b.2.1 - enthalpyQ a.2.2.2 b.2.1| : ℚ) : ℝ) ≤ ((1 / 20 : ℚ) : ℝ) := by exact_mod_cast h2
    unfold enthalpyQ at this
    push_cast at this
    exact this
  · obtain ⟨l1, l2⟩ := logTable_ok r hr
    rw [hrb] at l1 l2
    have h3' : ((|(b.2.2.2.A - a.2.2.2.A) * r.2.1 + (entropyRest b.2.2.2 b.2.1 - entropyRest a.2.2.2 b.2.1)| +
        |b.2.2.2.A - a.2.2.2.A| * (r.2.2 - r.2.1) : ℚ) : ℝ) ≤ ((1 / 50 : ℚ) : ℝ) := by exact_mod_cast h3
    unfold entropyRest at h3'
    push_cast at h3'
    set L := Real.log ((b.2.1 : ℝ) / 1000) with hL
    have key : entropyOf b.2.2.2 b.2.1 - entropyOf a.2.2.2 b.2.1 =
        (((b.2.2.2.A : ℝ) - a.2.2.2.A) * r.2.1 + (((b.2.2.2.B : ℝ) * (b.2.1 / 1000) + b.2.2.2.C * (b.2.1 / 1000) ^ 2 / 2 +
          b.2.2.2.D * (b.2.1 / 1000) ^ 3 / 3 - b.2.2.2.E / (2 * (b.2.1 / 1000) ^ 2) + b.2.2.2.G) -
          ((a.2.2.2.B : ℝ) * (b.2.1 / 1000) + a.2.2.2.C * (b.2.1 / 1000) ^ 2 / 2 +
          a.2.2.2.D * (b.2.1 / 1000) ^ 3 / 3 - a.2.2.2.E / (2 * (b.2.1 / 1000) ^ 2) + a.2.2.2.G))) +
        ((b.2.2.2.A : ℝ) - a.2.2.2.A) * (L - r.2.1) := by
      unfold entropyOf
      rw [← hL]
      ring
    rw [key]
    refine (abs_add_le _ _).trans (le_trans (add_le_add le_rfl ?_) h3')
    rw [abs_mul]
    refine mul_le_mul_of_nonneg_left ?_ (abs_nonneg _)
    rw [abs_of_nonneg (by linarith)]
    linarith

/-- The two entries for methane. -/
def exColdCH4 : Str × ℚ × ℚ × ShomateParams :=
  (str! "CH4_g", 298, 1300, ⟨-703029 / 1000000, 1084773 / 10000, -4252157 / 100000, 1465697 / 250000, 135713 / 200000, -960547 / 12500, 1587163 / 10000, -748731 / 10000⟩)
def exHotCH4 : Str × ℚ × ℚ × ShomateParams :=
  (str! "CH4_g", 1300, 1600, ⟨8581217 / 100000, 1126467 / 100000, -1057073 / 500000, 13819 / 100000, -2642221 / 100000, -1535327 / 10000, 2244143 / 10000, -748731 / 10000⟩)

theorem exCH4_mem : exColdCH4 ∈ shomateTable ∧ exHotCH4 ∈ shomateTable := by
  unfold shomateTable exColdCH4 exHotCH4
  simp only [List.mem_cons, true_or, or_true, and_self]

example : |entropyOf exHotCH4.2.2.2 exHotCH4.2.1 - entropyOf exColdCH4.2.2.2 exHotCH4.2.1| ≤ 1 / 50 :=
  (C83_borders exColdCH4 exHotCH4 exCH4_mem.1 exCH4_mem.2 rfl rfl).2.2

/-- **C83** (refuted) The correction itself does not: heat capacity and enthalpy at 298.15 K are taken from the parameters of the range
the temperature is in, also where that range does not contain 298.15 K. Just above 1300 K the correction of methane is more than one
electron volt below that at 1300 K. -/
theorem C83_border_refuted : ∃ (G : ℝ → ℝ) (g : ℝ), (∀ T, shomateCorrection T (str! "CH4_g") = .ok (G T)) ∧
    Filter.Tendsto G (𝓝[>] 1300) (𝓝 g) ∧ g < G 1300 - 1 ∧ heatCapacity exHotCH4.2.2.2 298.15 < -200 := by
  refine ⟨fun T => shomateLoop shomateTable (str! "CH4_g") T, shomateInRange 1300 exHotCH4.2.2.2, table_gas exColdCH4 exCH4_mem.1, ?_, ?_, ?_⟩
  · have hc : ContinuousAt (fun T => shomateInRange T exHotCH4.2.2.2) 1300 := (inRange_gibbs exHotCH4.2.2.2 (by norm_num)).energy.continuousAt
    refine (hc.tendsto.mono_left nhdsWithin_le_nhds).congr' ?_
    have hm : Set.Ioo (1300 : ℝ) 1600 ∈ 𝓝[>] (1300 : ℝ) := Ioo_mem_nhdsGT (by norm_num)
    filter_upwards [hm] with T hT
    exact (shomateLoop_select shomateTable table_ordered table_ranges exHotCH4 exCH4_mem.2 rfl (by norm_num [exHotCH4]; exact hT.1)
      (by norm_num [exHotCH4]; exact hT.2.le)).symm
  · show _ < shomateLoop shomateTable (str! "CH4_g") 1300 - 1
    have e1 : shomateLoop shomateTable (str! "CH4_g") 1300 = shomateInRange 1300 exColdCH4.2.2.2 :=
      shomateLoop_select shomateTable table_ordered table_ranges exColdCH4 exCH4_mem.1 rfl (by norm_num [exColdCH4]) (by norm_num [exColdCH4])
    rw [e1]
    obtain ⟨l1, l2⟩ := logTable_ok (1300, 26236 / 100000, 26237 / 100000) (by simp [logTable])
    norm_num at l1 l2
    simp only [exHotCH4, exColdCH4, shomateInRange, shomateH, shomateS, shomateCp, kJmol2eV]
    norm_num
    nlinarith [l1, l2]
  · norm_num [exHotCH4, heatCapacity]

/-! ## Size of the published functions -/

theorem reference_log : (-1211 / 1000 : ℝ) ≤ Real.log (298.15 / 1000) ∧ Real.log (298.15 / 1000) ≤ -1210 / 1000 := by
  have l2 := Real.log_two_gt_d9
  have l2' := Real.log_two_lt_d9
  have h := log_bounds (963 / 10963) (by norm_num) (by norm_num)
  have e : Real.log (298.15 / 1000) = Real.log (5963 / 5000) - 2 * Real.log 2 := by
    have : (2 : ℝ) * Real.log 2 = Real.log 4 := by
      rw [show (4 : ℝ) = 2 ^ 2 by norm_num, Real.log_pow]; norm_num
    rw [this, ← Real.log_div (by norm_num) (by norm_num)]
    norm_num
  norm_num at h
  rw [e]
  constructor <;> linarith

theorem reference_checked : ∀ e ∈ shomateTable, e.2.1 ≤ 29815 / 100 → 29815 / 100 ≤ e.2.2.1 →
    28 ≤ heatQ e.2.2.2 (29815 / 100) ∧ heatQ e.2.2.2 (29815 / 100) ≤ 79 ∧
    130 + |e.2.2.2.A| / 1000 ≤ e.2.2.2.A * (-1211 / 1000) + entropyRest e.2.2.2 (29815 / 100) ∧
    e.2.2.2.A * (-1211 / 1000) + entropyRest e.2.2.2 (29815 / 100) ≤ 267 - |e.2.2.2.A| / 1000 := by
  decide +kernel

/-- **C83** Every gas of the data base has data for 298.15 K; the heat capacity there is between 28 and 79 J/mol K, the entropy between 130
and 267 J/mol K. -/
theorem C83_reference (e : Str × ℚ × ℚ × ShomateParams) (he : e ∈ shomateTable) :
    (∃ e' ∈ shomateTable, e'.1 = e.1 ∧ e'.2.1 ≤ 29815 / 100 ∧ 29815 / 100 ≤ e'.2.2.1) ∧
    (e.2.1 ≤ 29815 / 100 → 29815 / 100 ≤ e.2.2.1 →
      (28 ≤ heatCapacity e.2.2.2 298.15 ∧ heatCapacity e.2.2.2 298.15 ≤ 79) ∧
      130 ≤ entropyOf e.2.2.2 298.15 ∧ entropyOf e.2.2.2 298.15 ≤ 267) := by
  constructor
  · have h : ∀ e ∈ shomateTable, ∃ e' ∈ shomateTable, e'.1 = e.1 ∧ e'.2.1 ≤ 29815 / 100 ∧ 29815 / 100 ≤ e'.2.2.1 := by decide +kernel
    exact h e he
  · intro h1 h2
    obtain ⟨c1, c2, c3, c4⟩ := reference_checked e he h1 h2
    have ht : (298.15 : ℝ) = ((29815 / 100 : ℚ) : ℝ) := by norm_num
    have hh : heatCapacity e.2.2.2 298.15 = ((heatQ e.2.2.2 (29815 / 100) : ℚ) : ℝ) := by
      rw [ht]; unfold heatCapacity heatQ; push_cast; rfl
    obtain ⟨l1, l2⟩ := reference_log
    have hs : entropyOf e.2.2.2 298.15 = e.2.2.2.A * Real.log (298.15 / 1000) + ((entropyRest e.2.2.2 (29815 / 100) : ℚ) : ℝ) := by
      rw [ht]; unfold entropyOf entropyRest; push_cast; ring
    have c3' : (130 : ℝ) + |(e.2.2.2.A : ℝ)| / 1000 ≤ e.2.2.2.A * (-1211 / 1000) + ((entropyRest e.2.2.2 (29815 / 100) : ℚ) : ℝ) := by exact_mod_cast c3
    have c4' : (e.2.2.2.A : ℝ) * (-1211 / 1000) + ((entropyRest e.2.2.2 (29815 / 100) : ℚ) : ℝ) ≤ 267 - |(e.2.2.2.A : ℝ)| / 1000 := by exact_mod_cast c4
    have hd : |(e.2.2.2.A : ℝ) * (Real.log (298.15 / 1000) - (-1211 / 1000))| ≤ |(e.2.2.2.A : ℝ)| / 1000 := by
      rw [abs_mul]
      have : |Real.log (298.15 / 1000) - (-1211 / 1000)| ≤ 1 / 1000 := by
        rw [abs_of_nonneg (by linarith)]; linarith
      calc _ ≤ |(e.2.2.2.A : ℝ)| * (1 / 1000) := mul_le_mul_of_nonneg_left this (abs_nonneg _)
        _ = _ := by ring
    obtain ⟨d1, d2⟩ := abs_le.mp hd
    rw [hh, hs]
    refine ⟨⟨by exact_mod_cast c1, by exact_mod_cast c2⟩, by linarith, by linarith⟩

/-- A lower bound of the heat capacity for temperatures between `u` and `v` thousand kelvin. -/
def heatLow (p : ShomateParams) (u v : ℚ) : ℚ :=
  p.A + min (p.B * u) (p.B * v) + min (p.C * u ^ 2) (p.C * v ^ 2) + min (p.D * u ^ 3) (p.D * v ^ 3) + min (p.E / u ^ 2) (p.E / v ^ 2)

theorem mul_min_le (c : ℚ) {x u v : ℝ} (h1 : u ≤ x) (h2 : x ≤ v) : min ((c : ℝ) * u) (c * v) ≤ c * x := by
  by_cases hc : (0 : ℝ) ≤ c
  · exact (min_le_left _ _).trans (mul_le_mul_of_nonneg_left h1 hc)
  · exact (min_le_right _ _).trans (mul_le_mul_of_nonpos_left h2 (le_of_not_ge hc))

theorem heatLow_le (p : ShomateParams) {u v : ℚ} {T : ℝ} (hu : 0 < u) (h1 : (u : ℝ) ≤ T / 1000) (h2 : T / 1000 ≤ v) :
    (heatLow p u v : ℝ) ≤ heatCapacity p T := by
  unfold heatLow heatCapacity
  push_cast
  have hu' : (0 : ℝ) < u := by exact_mod_cast hu
  generalize T / 1000 = t at h1 h2
  have ht : 0 < t := by linarith
  have b := mul_min_le p.B h1 h2
  have c := mul_min_le p.C (pow_le_pow_left₀ hu'.le h1 2) (pow_le_pow_left₀ ht.le h2 2)
  have d := mul_min_le p.D (pow_le_pow_left₀ hu'.le h1 3) (pow_le_pow_left₀ ht.le h2 3)
  have e := mul_min_le p.E (x := (t ^ 2)⁻¹) (u := ((v : ℝ) ^ 2)⁻¹) (v := ((u : ℝ) ^ 2)⁻¹)
    (inv_anti₀ (by positivity) (pow_le_pow_left₀ ht.le h2 2)) (inv_anti₀ (by positivity) (pow_le_pow_left₀ hu'.le h1 2))
  rw [min_comm] at e
  rw [div_eq_mul_inv, div_eq_mul_inv, div_eq_mul_inv]
  linarith

/-- The bound holds in every one of `n` steps of width `w` from `u` on. -/
def heatScan (p : ShomateParams) (low u w : ℚ) : Nat → Bool
  | 0 => true
  | n + 1 => decide (low ≤ heatLow p u (u + w)) && heatScan p low (u + w) w n

theorem heatScan_ok (p : ShomateParams) (low w : ℚ) (hw : 0 < w) : ∀ (n : Nat) (u : ℚ), 0 < u → heatScan p low u w n = true →
    ∀ T : ℝ, (u : ℝ) ≤ T / 1000 → T / 1000 < u + n * w → (low : ℝ) ≤ heatCapacity p T
  | 0, u, _, _, T, h1, h2 => by simp at h2; linarith
  | n + 1, u, hu, h, T, h1, h2 => by
    rw [heatScan, Bool.and_eq_true, decide_eq_true_eq] at h
    by_cases hT : T / 1000 ≤ ((u + w : ℚ) : ℝ)
    · have : ((low : ℚ) : ℝ) ≤ heatLow p u (u + w) := by exact_mod_cast h.1
      exact this.trans (heatLow_le p hu h1 hT)
    · refine heatScan_ok p low w hw n (u + w) (by linarith) h.2 T (by linarith) ?_
      push_cast at h2 hT ⊢
      linarith

theorem heat_checked : ∀ e ∈ shomateTable, heatScan e.2.2.2 25 (e.2.1 / 1000) ((e.2.2.1 - e.2.1) / 60000) 61 = true := by decide +kernel

/-- **C83** The heat capacity is at least 25 J/mol K at every temperature of every range, so that enthalpy and entropy grow with the
temperature. -/
theorem C83_heat_capacity (e : Str × ℚ × ℚ × ShomateParams) (he : e ∈ shomateTable) (T : ℝ) (h1 : (e.2.1 : ℝ) ≤ T)
    (h2 : T ≤ (e.2.2.1 : ℝ)) : 25 ≤ heatCapacity e.2.2.2 T := by
  have hr := table_ranges e he
  have hpos : ∀ a ∈ shomateTable, 0 < a.2.1 := by decide +kernel
  have hp := hpos e he
  have hr' : (e.2.1 : ℝ) < e.2.2.1 := by exact_mod_cast hr
  have := heatScan_ok e.2.2.2 25 ((e.2.2.1 - e.2.1) / 60000) (by linarith) 61 (e.2.1 / 1000) (by linarith) (heat_checked e he) T
    (by push_cast; linarith) (by push_cast; linarith)
  exact_mod_cast this

example : 25 ≤ heatCapacity exHotCH4.2.2.2 1450 :=
  C83_heat_capacity exHotCH4 exCH4_mem.2 1450 (by norm_num [exHotCH4]) (by norm_num [exHotCH4])

/-- **C83** In every range the entropy grows with the temperature. -/
theorem C83_entropy_grows (e : Str × ℚ × ℚ × ShomateParams) (he : e ∈ shomateTable) (S T : ℝ) (h1 : (e.2.1 : ℝ) ≤ S) (hST : S < T)
    (h2 : T ≤ (e.2.2.1 : ℝ)) : entropyOf e.2.2.2 S < entropyOf e.2.2.2 T ∧ enthalpyOf e.2.2.2 S < enthalpyOf e.2.2.2 T := by
  have hpos : ∀ a ∈ shomateTable, 0 < a.2.1 := by decide +kernel
  have hp : (0 : ℝ) < e.2.1 := by exact_mod_cast hpos e he
  have hd : ∀ x, (e.2.1 : ℝ) ≤ x → HasDerivAt (entropyOf e.2.2.2) (heatCapacity e.2.2.2 x / x) x := by
    intro x hx
    have := hasDerivAt_shomateS e.2.2.2 (T := x) (by linarith)
    have hf : entropyOf e.2.2.2 = fun T => shomateS T e.2.2.2 := by
      funext y
      exact entropyOf_eq _ _
    rw [hf]
    exact this
  have hd' : ∀ x, (e.2.1 : ℝ) ≤ x → HasDerivAt (enthalpyOf e.2.2.2) (heatCapacity e.2.2.2 x / 1000) x := by
    intro x hx
    have := hasDerivAt_shomateH e.2.2.2 (T := x) (by linarith)
    have hf : enthalpyOf e.2.2.2 = fun T => shomateH T e.2.2.2 := by
      funext y
      unfold enthalpyOf shomateH
      ring
    rw [hf]
    exact this
  have hI : ∀ x ∈ Set.Icc (e.2.1 : ℝ) e.2.2.1, 0 < heatCapacity e.2.2.2 x := fun x hx =>
    lt_of_lt_of_le (by norm_num) (C83_heat_capacity e he x hx.1 hx.2)
  have m1 : StrictMonoOn (entropyOf e.2.2.2) (Set.Icc (e.2.1 : ℝ) e.2.2.1) := by
    refine strictMonoOn_of_hasDerivWithinAt_pos (convex_Icc _ _) (fun x hx => (hd x hx.1).continuousAt.continuousWithinAt)
      (fun x hx => (hd x (interior_subset hx).1).hasDerivWithinAt) fun x hx => ?_
    exact div_pos (hI x (interior_subset hx)) (lt_of_lt_of_le hp (interior_subset hx).1)
  have m2 : StrictMonoOn (enthalpyOf e.2.2.2) (Set.Icc (e.2.1 : ℝ) e.2.2.1) := by
    refine strictMonoOn_of_hasDerivWithinAt_pos (convex_Icc _ _) (fun x hx => (hd' x hx.1).continuousAt.continuousWithinAt)
      (fun x hx => (hd' x (interior_subset hx).1).hasDerivWithinAt) fun x hx => ?_
    exact div_pos (hI x (interior_subset hx)) (by norm_num)
  have hs : S ∈ Set.Icc (e.2.1 : ℝ) e.2.2.1 := ⟨h1, by linarith⟩
  have ht : T ∈ Set.Icc (e.2.1 : ℝ) e.2.2.1 := ⟨by linarith, h2⟩
  exact ⟨m1 hs ht hST, m2 hs ht hST⟩

example : entropyOf exHotCH4.2.2.2 1300 < entropyOf exHotCH4.2.2.2 1450 :=
  (C83_entropy_grows exHotCH4 exCH4_mem.2 1300 1450 (by norm_num [exHotCH4]) (by norm_num) (by norm_num [exHotCH4])).1

end Verif
