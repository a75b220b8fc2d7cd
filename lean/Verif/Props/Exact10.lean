import Verif.Props.Kmc
/-
Exact conditions for C52: which sites are counted, and when coverages are recorded.
-/
namespace Verif
open Dict
variable {K : Type} [Field K]

/-- **C52** On every lattice, with or without repeated types: the sites after the last whole cell are not counted, and all others are. -/
theorem C52_whole_cells (possible : List Str) (empty : Str) (ratios : List K) (types : List Str) (hr : ratios ≠ []) :
    recordCoverages possible empty ratios types =
      recordCoverages possible empty ratios (types.take (types.length / ratios.length * ratios.length)) := by
  have hL : 0 < ratios.length := List.length_pos_of_ne_nil hr
  have hlen : (types.take (types.length / ratios.length * ratios.length)).length = types.length / ratios.length * ratios.length := by
    rw [List.length_take]
    exact Nat.min_eq_left (Nat.div_mul_le_self _ _)
  have hzip : ∀ (l : List K) (k : List Str), l.zip k = l.zip (k.take l.length) := by
    intro l
    induction l with
    | nil => simp
    | cons a l ih =>
      intro k
      cases k with
      | nil => simp
      | cons b k =>
        rw [List.length_cons, List.take_succ_cons, List.zip_cons_cons, List.zip_cons_cons, ← ih]
  unfold recordCoverages
  cases indexOf? possible empty with
  | none => rfl
  | some i =>
    dsimp only
    congr 1
    unfold collectCoverages
    rw [hlen, Nat.mul_div_cancel _ hL]
    dsimp only
    rw [hzip _ types]
    have : ((List.replicate (types.length / ratios.length) ratios).flatten).length = types.length / ratios.length * ratios.length := by
      rw [List.length_flatten, List.map_replicate, List.sum_replicate_nat]
    rw [this]

/-- **C52** When coverages are recorded, exactly: the empty type is possible, there are coverage ratios, and the lattice has at least one whole cell unless no other type is possible. -/
theorem C52_iff (possible : List Str) (empty : Str) (ratios : List K) (types : List Str) :
    (∃ l, recordCoverages possible empty ratios types = .ok l) ↔
      empty ∈ possible ∧ ratios ≠ [] ∧ (ratios.length ≤ types.length ∨ possible.length = 1) := by
  by_cases he : empty ∈ possible
  swap
  · rw [(C52_settings possible empty types).2 ratios he]
    exact ⟨(fun ⟨l, h⟩ => nomatch h), fun h => absurd h.1 he⟩
  by_cases hr : ratios = []
  · subst hr
    rw [(C52_settings possible empty types).1 he]
    exact ⟨(fun ⟨l, h⟩ => nomatch h), fun h => absurd rfl h.2.1⟩
  have hL : 0 < ratios.length := List.length_pos_of_ne_nil hr
  cases hi : indexOf? possible empty with
  | none => exact absurd he (indexOf?_none.mp hi)
  | some i =>
    have hlt := indexOf?_lt hi
    have hnil : ∀ zs : List (K × Str), collectLoop (possible.eraseIdx i) zs (List.replicate (possible.eraseIdx i).length 0) = [] ↔ possible.length = 1 := by
      intro zs
      rw [← List.length_eq_zero_iff, collectLoop_length, List.length_replicate, List.length_eraseIdx, if_pos hlt]
      omega
    have hdiv : types.length / ratios.length = 0 ↔ ¬ ratios.length ≤ types.length := by
      rw [Nat.div_eq_zero_iff]
      omega
    unfold recordCoverages collectCoverages
    rw [hi]
    dsimp only
    rw [if_neg (by omega : ¬ ratios.length = 0)]
    by_cases hb : types.length / ratios.length = 0 ∧ ¬ possible.length = 1
    · rw [if_pos ⟨hb.1, fun h => hb.2 ((hnil _).mp h)⟩]
      constructor
      · rintro ⟨l, h⟩; exact nomatch h
      · rintro ⟨-, -, h | h⟩
        · exact absurd h (hdiv.mp hb.1)
        · exact absurd h hb.2
    · rw [if_neg fun h => hb ⟨h.1, fun e => h.2 ((hnil _).mpr e)⟩]
      refine ⟨fun _ => ⟨he, hr, ?_⟩, fun _ => ⟨_, rfl⟩⟩
      by_cases h1 : possible.length = 1
      · exact .inr h1
      · left
        by_contra h2
        exact hb ⟨hdiv.mpr h2, h1⟩

example : recordCoverages [str! "V", str! "C"] (str! "V") [(1 / 2 : ℚ), 1 / 2] [str! "C", str! "V", str! "C"] = .ok [1 / 2, 1 / 2] ∧
    recordCoverages [str! "V", str! "C"] (str! "V") [(1 / 2 : ℚ), 1 / 2] [str! "C"] = .error .ZeroDivisionError := by
  decide +kernel

end Verif
