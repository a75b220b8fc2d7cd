import Verif.Props.Exact10
/-
C52: the recorded coverages for every list of possible types.
-/
namespace Verif
open Dict
variable {K : Type} [Field K]

theorem indexOf?_first {l : List Str} {s : Str} {i : Nat} : indexOf? l s = some i ↔ l[i]? = some s ∧ ∀ j < i, l[j]? ≠ some s := by
  induction l generalizing i with
  | nil => simp [indexOf?]
  | cons t l ih =>
    unfold indexOf?
    by_cases e : t = s
    · rw [if_pos e]
      constructor
      · intro h
        cases h
        exact ⟨by simp [e], by simp⟩
      · rintro ⟨-, h⟩
        cases i with
        | zero => rfl
        | succ i => exact absurd (by simp [e]) (h 0 (by omega))
    · rw [if_neg e]
      cases i with
      | zero => simp [e]
      | succ i =>
        rw [Option.map_eq_some_iff]
        constructor
        · rintro ⟨k, hk, hki⟩
          have : k = i := by omega
          subst this
          obtain ⟨h1, h2⟩ := ih.mp hk
          refine ⟨by simpa using h1, fun j hj => ?_⟩
          cases j with
          | zero => simp [e]
          | succ j => simpa using h2 j (by omega)
        · rintro ⟨h1, h2⟩
          exact ⟨i, ih.mpr ⟨by simpa using h1, fun j hj => by simpa using h2 (j + 1) (by omega)⟩, rfl⟩

/-- **C52** The recorded coverages for every list of possible types, repeated or not, on whole cells. The first place of the empty type is for what is left of one; of the
other places, the first of each type gets the whole fraction of the sites with this type, and each further one zero. -/
theorem C52_types [LinearOrder K] [IsStrictOrderedRing K] (possible : List Str) (empty : Str) (ratios : List K) (cells : List (List Str))
    (hr : ratios ≠ []) (hc : cells ≠ [])
    (hl : ∀ c ∈ cells, c.length = ratios.length) (i : Nat) (hi : indexOf? possible empty = some i) :
    ∃ l, recordCoverages possible empty ratios cells.flatten = .ok l ∧ l.length = possible.length ∧ l.sum = 1 ∧
      ∀ (k : Nat) (s : Str), possible[k]? = some s → k ≠ i →
        ((∀ j < k, j ≠ i → possible[j]? ≠ some s) → l[k]? = some (cellWeight ratios cells s / (cells.length : K))) ∧
        ((∃ j < k, j ≠ i ∧ possible[j]? = some s) → l[k]? = some 0) := by
  have hlt := indexOf?_lt hi
  let other := possible.eraseIdx i
  let zs : List (K × Str) := cells.flatMap fun c => ratios.zip c
  let nt := collectLoop other zs (List.replicate other.length 0)
  let cv := nt.map (· / (cells.length : K))
  have hrec : recordCoverages possible empty ratios cells.flatten = .ok (cv.insertIdx i (1 - cv.sum)) := by
    unfold recordCoverages
    rw [hi]
    dsimp only
    rw [collectCoverages_cells hr hc hl]
    rfl
  obtain ⟨h1, h2⟩ := C52_sum _ _ _ _ _ hrec
  have hw : ∀ (j : Nat) (s : Str), other[j]? = some s →
      ((∀ m < j, other[m]? ≠ some s) → cv[j]? = some (cellWeight ratios cells s / (cells.length : K))) ∧
      ((∃ m < j, other[m]? = some s) → cv[j]? = some 0) := by
    intro j s hs
    have hj : j < other.length := (List.getElem?_eq_some_iff.mp hs).1
    have hcv : cv[j]? = some (idxWeight other zs j / (cells.length : K)) := by
      simp only [cv, nt, List.getElem?_map, collectLoop_getElem?]
      simp [hj]
    constructor
    · intro hfirst
      rw [hcv]
      congr 2
      unfold idxWeight cellWeight
      simp only [zs, List.map_flatMap]
      rw [sum_flatMap']
      congr 1
      apply List.map_congr_left
      intro c _
      congr 1
      apply List.map_congr_left
      intro p _
      have : (indexOf? other p.2 = some j) ↔ p.2 = s := by
        constructor
        · intro h
          have := indexOf?_some h
          rw [hs] at this
          exact (Option.some.inj this).symm
        · intro h
          rw [h]
          exact indexOf?_first.mpr ⟨hs, hfirst⟩
      by_cases e : p.2 = s
      · rw [if_pos (this.mpr e), if_pos e]
      · rw [if_neg (fun h => e (this.mp h)), if_neg e]
    · rintro ⟨m, hm, hms⟩
      rw [hcv]
      have : idxWeight other zs j = 0 := by
        unfold idxWeight
        apply List.sum_eq_zero
        intro x hx
        obtain ⟨p, -, rfl⟩ := List.mem_map.mp hx
        rw [if_neg]
        intro h
        obtain ⟨q1, q2⟩ := indexOf?_first.mp h
        rw [hs] at q1
        rw [← Option.some.inj q1] at q2
        exact q2 m hm hms
      rw [this, zero_div]
  refine ⟨_, hrec, h1, h2, fun k s hk hki => ?_⟩
  -- places before and after the one of the empty type
  have hother : ∀ m, other[if m < i then m else m - 1]? = (if m = i then other[i - 1]? else possible[m]?) := by
    intro m
    simp only [other]
    by_cases hm : m < i
    · rw [if_pos hm, if_neg (by omega), List.getElem?_eraseIdx, if_pos hm]
    · rw [if_neg hm]
      by_cases e : m = i
      · rw [if_pos e, e]
      · rw [if_neg e, List.getElem?_eraseIdx, if_neg (by omega), Nat.sub_add_cancel (by omega)]
  have hk' : other[if k < i then k else k - 1]? = some s := by rw [hother, if_neg hki, hk]
  have hval : (cv.insertIdx i (1 - cv.sum))[k]? = cv[if k < i then k else k - 1]? := by
    rw [List.getElem?_insertIdx]
    by_cases h : k < i
    · rw [if_pos h, if_pos h]
    · rw [if_neg h, if_neg hki, if_neg h]
  rw [hval]
  obtain ⟨w1, w2⟩ := hw _ s hk'
  constructor
  · intro hf
    refine w1 fun m hm => ?_
    by_cases hmi : m < i
    · have := hother m
      rw [if_pos hmi, if_neg (by omega)] at this
      rw [this]
      refine hf m ?_ (by omega)
      split at hm <;> omega
    · have := hother (m + 1)
      rw [if_neg (by omega), if_neg (by omega), Nat.add_sub_cancel] at this
      rw [this]
      refine hf (m + 1) ?_ (by omega)
      split at hm <;> omega
  · rintro ⟨j, hj, hji, hjs⟩
    refine w2 ⟨if j < i then j else j - 1, ?_, by rw [hother, if_neg hji, hjs]⟩
    split <;> split <;> omega

example : indexOf? [str! "C", str! "V", str! "C"] (str! "V") = some 1 ∧ (∀ c ∈ [[str! "C"], [str! "V"]], c.length = [(1 : ℚ)].length) ∧
    recordCoverages [str! "C", str! "V", str! "C"] (str! "V") [(1 : ℚ)] [[str! "C"], [str! "V"]].flatten = .ok [1 / 2, 1 / 2, 0] := by
  refine ⟨rfl, by decide, by decide +kernel⟩

end Verif
