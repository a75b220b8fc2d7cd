import Verif.Props.MapPlot
import Verif.Props.NeuQuant
import Verif.Props.SeriesPlot
import Mathlib.Tactic.Linarith
/-
C115, C116, C117: the places of the contour plots, the errors of the figures, and the radius of the learning.
-/
namespace Verif
open Dict

variable {K : Type} [Field K] [LinearOrder K] [IsStrictOrderedRing K]

omit [LinearOrder K] [IsStrictOrderedRing K] in
theorem linspace_at (a b : K) (n i : Nat) (hn : n ≠ 1) (hi : i < n) : (linspace a b n)[i]? = some (a + (i : K) * ((b - a) / ((n : K) - 1))) := by
  unfold linspace
  rw [if_neg hn, List.getElem?_map, List.getElem?_range hi]
  rfl

/-- **C115** The contour plots of lattice runs show, in a hundred rows of a hundred values, the map at pressures of carbon monoxide from `10⁻⁵` to `10⁻⁴` and of
oxygen from `10⁻⁵` to 5; those of steady states show it at pressures from `10⁻⁵` to `0.5` of both. -/
theorem C115_contours {xs ys : List K} {z : List (List K)} {m : MapFit K} (hm : fitMap xs ys z = .ok m) :
    (∃ fig, contourPlot xs ys z = .ok fig ∧ fig.length = 100 ∧ ∀ i j : Nat, i < 100 → j < 100 → ∃ row v, fig[j]? = some row ∧ row.length = 100 ∧ row[i]? = some v ∧
      m.at (1 / 10 ^ 5 + i / 99 * (1 / 10 ^ 4 - 1 / 10 ^ 5)) (1 / 10 ^ 5 + j / 99 * (5 - 1 / 10 ^ 5)) = .ok v) ∧
    (∃ fig, steadyContour xs ys z = .ok fig ∧ fig.length = 100 ∧ ∀ i j : Nat, i < 100 → j < 100 → ∃ row v, fig[j]? = some row ∧ row.length = 100 ∧ row[i]? = some v ∧
      m.at (1 / 10 ^ 5 + i / 99 * (1 / 2 - 1 / 10 ^ 5)) (1 / 10 ^ 5 + j / 99 * (1 / 2 - 1 / 10 ^ 5)) = .ok v) := by
  constructor
  · obtain ⟨fig, h1, h2, h3⟩ := C115_figure hm (contourPlaces (K := K)).1 contourPlaces.2
    refine ⟨fig, h1, by rw [h2]; simp [contourPlaces, steadyPlaces, linspace_length], fun i j hi hj => ?_⟩
    obtain ⟨row, v, e1, e2, e3, e4⟩ := h3 i j _ _ (linspace_at _ _ 100 i (by norm_num) hi) (linspace_at _ _ 100 j (by norm_num) hj)
    refine ⟨row, v, e1, by rw [e2]; simp [contourPlaces, steadyPlaces, linspace_length], e3, ?_⟩
    rw [← e4]
    congr 1 <;> · push_cast; ring
  · obtain ⟨fig, h1, h2, h3⟩ := C115_figure hm (steadyPlaces (K := K)).1 steadyPlaces.2
    refine ⟨fig, h1, by rw [h2]; simp [contourPlaces, steadyPlaces, linspace_length], fun i j hi hj => ?_⟩
    obtain ⟨row, v, e1, e2, e3, e4⟩ := h3 i j _ _ (linspace_at _ _ 100 i (by norm_num) hi) (linspace_at _ _ 100 j (by norm_num) hj)
    refine ⟨row, v, e1, by rw [e2]; simp [contourPlaces, steadyPlaces, linspace_length], e3, ?_⟩
    rw [← e4]
    congr 1 <;> · push_cast; ring

omit [IsStrictOrderedRing K] in
/-- **C115** A map that does not fit its pressures cannot be drawn at any places, and tables of different shapes make no phase diagram. -/
theorem C115_failing (xs ys xnew ynew : List K) (z : List (List K)) :
    (¬ (z.length = ys.length ∧ (∀ r ∈ z, r.length = xs.length) ∧ xs.Nodup ∧ ys.Nodup ∧ 2 ≤ xs.length ∧ 2 ≤ ys.length) →
      drawMap xs ys z xnew ynew = .error .ValueError) ∧
    ∀ tofs co o : List (List K), co.map List.length ≠ o.map List.length → phaseDiagram xs ys tofs co o = .error .ValueError := by
  constructor
  · intro hn
    have hf : fitMap xs ys z = .error .ValueError := by
      unfold fitMap
      split
      · rfl
      · split
        · rfl
        · rename_i g1 g2
          refine absurd ?_ hn
          push Not at g1 g2
          exact ⟨g1.1, by simpa using g1.2, g2.1, g2.2.1, g2.2.2.1, g2.2.2.2⟩
    unfold drawMap
    rw [hf]
    rfl
  · intro tofs co o h
    unfold phaseDiagram subTables
    rw [if_neg (Ne.symm h)]
    rfl

/-- A map with a missing row, and coverages of different shapes. -/
example : drawMap (K := ℚ) [1, 2] [1, 2] [[3, 4]] [1] [1] = .error .ValueError ∧ phaseDiagram (K := ℚ) [1, 2] [1, 2] [] [[1]] [[1, 2]] = .error .ValueError :=
  ⟨(C115_failing _ _ _ _ _).1 (by simp), (C115_failing [1, 2] [1, 2] [] [] []).2 _ _ _ (by simp)⟩

omit [IsStrictOrderedRing K] in
/-- **C116** The curves of steady states need three adsorbates in `plot_cvgs.py` and two in `plot_cvgs_tof.py`: a row with fewer raises `IndexError`. -/
theorem C116_too_few (names : List Str) (rows : List (List K)) (r : List K) (hr : r ∈ rows) :
    (r.length < 3 → steadyCurvesThree names rows = .error .IndexError) ∧ (r.length < 2 → steadyCurves names rows = .error .IndexError) := by
  have hlen : (columnsOf rows).length ≤ r.length := by
    unfold columnsOf
    cases hm : (rows.map List.length).min? with
    | none => simp
    | some n =>
      simp only [List.length_map, List.length_range]
      exact (List.le_min?_iff hm).mp le_rfl _ (List.mem_map_of_mem hr)
  constructor
  · intro h
    unfold steadyCurvesThree
    match hc : columnsOf rows with
    | [] => rfl
    | [_] => rfl
    | [_, _] => rfl
    | _ :: _ :: _ :: _ => rw [hc] at hlen; simp at hlen; omega
  · intro h
    unfold steadyCurves
    match hc : columnsOf rows with
    | [] => rfl
    | [_] => rfl
    | _ :: _ :: _ => rw [hc] at hlen; simp at hlen; omega

example : steadyCurvesThree (K := ℚ) [] [[1, 2, 3], [1, 2]] = .error .IndexError ∧ steadyCurves (K := ℚ) [] [[1]] = .error .IndexError :=
  ⟨(C116_too_few _ _ [1, 2] (by simp)).1 (by simp), (C116_too_few _ _ [1] (by simp)).2 (by simp)⟩

/-- **C117** The radius at the start of the learning is an eighth of the number of colours; below sixteen colours no neighbours are moved. -/
theorem C117_radius (n : Nat) : (n < 16 → qRadius (n / 8 * 64) = 0) ∧ (16 ≤ n → qRadius (n / 8 * 64) = n / 8) ∧
    ∀ b, (b < 128 → qRadius b = 0) ∧ (128 ≤ b → 64 * qRadius b ≤ b ∧ b < 64 * (qRadius b + 1)) := by
  unfold qRadius
  refine ⟨fun h => ?_, fun h => ?_, fun b => ⟨fun h => ?_, fun h => ?_⟩⟩
  · rw [Nat.mul_div_cancel _ (by norm_num)]
    dsimp only
    rw [if_pos (by omega)]
  · rw [Nat.mul_div_cancel _ (by norm_num)]
    dsimp only
    rw [if_neg (by omega)]
  · dsimp only; rw [if_pos (by omega)]
  · dsimp only; rw [if_neg (by omega)]; omega

/-- **C117** With fewer than sixteen colours a pixel moves one row of the map and no other, at any time of the learning. -/
theorem C117_few_colours {i alpha n b : Nat} {c : QRow} {s : QNet} (hi : i ≠ 0) (hn : 4 ≤ n) (hfew : n < 16) (hb : b ≤ n / 8 * 64)
    (h1 : s.network.length = n) (h2 : s.freq.length = n) (h3 : s.bias.length = n) (h : c ∉ s.network.take 3) :
    ∃ s' j, qPixel i alpha (qRadius b) c s = .ok s' ∧ BiasedRow c s j ∧ ∀ (m : Nat), m ≠ j → m < n → s'.network[m]? = s.network[m]? := by
  rw [((C117_radius n).2.2 b).1 (by omega)]
  obtain ⟨s', j, e1, e2, e3, e4⟩ := C117_step (alpha := alpha) (rad := 0) hi hn h1 h2 h3 h
  refine ⟨s', j, e1, e2, fun m hm hmn => ?_⟩
  have hs : s.network[m]? = some (s.network[m]'(by omega)) := List.getElem?_eq_getElem _
  rw [hs, e4 m _ hs, if_neg hm, if_neg (by omega)]

/-- The seven rows of the example are few. -/
example : ∃ s' j, qPixel 1 1024 (qRadius 0) (200, 10, 10) exColourNet = .ok s' ∧ BiasedRow (200, 10, 10) exColourNet j ∧
    ∀ (m : Nat), m ≠ j → m < 7 → s'.network[m]? = exColourNet.network[m]? :=
  C117_few_colours (by norm_num) (by norm_num) (by norm_num) (by norm_num) rfl rfl rfl (by decide)

/-- **C117** With three colours there is no row to learn: the first pixel of a colour other than black, white and the background raises `ValueError`. -/
theorem C117_three_colours {i alpha rad : Nat} {c : QRow} {s : QNet} (hi : i ≠ 0) (h1 : s.network.length = 3) (h : c ∉ s.network) :
    qPixel i alpha rad c s = .error .ValueError := by
  have hsp : qSpecial c s = none := by
    unfold qSpecial
    rw [List.findIdx?_eq_none_iff]
    intro p hp
    simp only [decide_eq_false_iff_not]
    rintro rfl
    exact h (List.mem_of_mem_take hp)
  have hd : s.network.drop 3 = [] := List.drop_eq_nil_of_le (by omega)
  unfold qPixel
  simp only [if_neg hi, hsp, qContest, hd, List.map_nil, argmin, bind, Except.bind]

example : ∃ s, qSetUp 3 (9, 9, 9) = .ok s ∧ qPixel 1 1024 0 (200, 10, 10) s = .error .ValueError :=
  ⟨_, rfl, C117_three_colours (by norm_num) rfl (by decide)⟩

/-! ### The theorems at these cases -/

example := C115_contours exMap_ok

end Verif
