import Verif.Py.Regex
namespace Verif.Re
open Verif
variable {β : Type _} {p : Char → Bool}

theorem star_append {a b : Str} {k : Str → Str → Option β} {x : β}
    (ha : ∀ c ∈ a, p c = true) (h : star p b (fun w r => k (a ++ w) r) = some x) :
    star p (a ++ b) k = some x := by
  induction a generalizing k with
  | nil => simpa using h
  | cons c a ih =>
    have hc : p c = true := ha c (by simp)
    have := ih (k := fun w r => k (c :: w) r) (fun d hd => ha d (by simp [hd])) (by simpa using h)
    simp [star, hc, this]

theorem star_eq_none {s : Str} {k : Str → Str → Option β}
    (h : ∀ w r, w ++ r = s → k w r = none) : star p s k = none := by
  induction s generalizing k with
  | nil => simpa [star] using h [] [] rfl
  | cons c cs ih =>
    have h1 : star p cs (fun w r => k (c :: w) r) = none :=
      ih (fun w r hwr => h (c :: w) r (by simp [hwr]))
    have h2 : k [] (c :: cs) = none := h [] (c :: cs) rfl
    simp [star, h1, h2]

/-- The first choice of a greedy star: take the whole maximal run. -/
theorem star_stop {s : Str} {k : Str → Str → Option β}
    (h : ∀ c, s.head? = some c → p c = false) : star p s k = k [] s := by
  cases s with
  | nil => rfl
  | cons c cs => simp [star, h c rfl]

theorem star_sound {s : Str} {k : Str → Str → Option β} {x : β}
    (h : star p s k = some x) :
    ∃ w r, s = w ++ r ∧ (∀ c ∈ w, p c = true) ∧ k w r = some x := by
  induction s generalizing k with
  | nil => exact ⟨[], [], rfl, by simp, h⟩
  | cons c cs ih =>
    simp only [star] at h
    split at h
    · rename_i hc
      split at h
      · rename_i y hy
        cases h
        obtain ⟨w, r, hs, hw, hk⟩ := ih hy
        exact ⟨c :: w, r, by simp [hs], by simpa [hc] using hw, hk⟩
      · exact ⟨[], c :: cs, rfl, by simp, h⟩
    · exact ⟨[], c :: cs, rfl, by simp, h⟩

theorem plus_sound {s : Str} {k : Str → Str → Option β} {x : β}
    (h : plus p s k = some x) :
    ∃ w r, s = w ++ r ∧ w ≠ [] ∧ (∀ c ∈ w, p c = true) ∧ k w r = some x := by
  cases s with
  | nil => simp [plus] at h
  | cons c cs =>
    simp only [plus] at h
    split at h
    · rename_i hc
      obtain ⟨w, r, hs, hw, hk⟩ := star_sound h
      exact ⟨c :: w, r, by simp [hs], by simp, by simpa [hc] using hw, hk⟩
    · simp at h

theorem plus_append {a b : Str} {k : Str → Str → Option β} {x : β} (hne : a ≠ [])
    (ha : ∀ c ∈ a, p c = true) (h : star p b (fun w r => k (a ++ w) r) = some x) :
    plus p (a ++ b) k = some x := by
  cases a with
  | nil => exact absurd rfl hne
  | cons c a =>
    have hc : p c = true := ha c (by simp)
    simp only [List.cons_append, plus, hc, if_true]
    exact star_append (fun d hd => ha d (by simp [hd])) (by simpa using h)

theorem lit_sound {l s : Str} {k : Str → Option β} {x : β} (h : lit l s k = some x) :
    ∃ r, s = l ++ r ∧ k r = some x := by
  induction l generalizing s with
  | nil => exact ⟨s, rfl, h⟩
  | cons a as ih =>
    cases s with
    | nil => simp [lit] at h
    | cons c cs =>
      simp only [lit] at h
      split at h
      · rename_i hac
        obtain ⟨r, hs, hk⟩ := ih h
        exact ⟨r, by simp [hs, hac], hk⟩
      · simp at h

@[simp] theorem lit_append (l r : Str) (k : Str → Option β) : lit l (l ++ r) k = k r := by
  induction l with
  | nil => rfl
  | cons a as ih => simp [lit, ih]

theorem search_sound {m : Str → Option β} {s : Str} {x : β} (h : search m s = some x) :
    ∃ pre suf, s = pre ++ suf ∧ m suf = some x := by
  induction s with
  | nil => exact ⟨[], [], rfl, h⟩
  | cons c cs ih =>
    simp only [search] at h
    split at h
    · rename_i y hy
      cases h
      exact ⟨[], c :: cs, rfl, hy⟩
    · obtain ⟨pre, suf, hs, hm⟩ := ih h
      exact ⟨c :: pre, suf, by simp [hs], hm⟩

theorem search_here {m : Str → Option β} {s : Str} {x : β} (h : m s = some x) :
    search m s = some x := by
  cases s with
  | nil => exact h
  | cons c cs => simp [search, h]

theorem search_none {m : Str → Option β} {s : Str}
    (h : ∀ pre suf, s = pre ++ suf → m suf = none) : search m s = none := by
  induction s with
  | nil => exact h [] [] rfl
  | cons c cs ih =>
    have h1 := h [] (c :: cs) rfl
    have h2 := ih (fun pre suf hs => h (c :: pre) suf (by simp [hs]))
    simp [search, h1, h2]

theorem alt_some {a b : Option β} {x : β} (h : alt a b = some x) : a = some x ∨ b = some x := by
  unfold alt at h
  split at h <;> simp_all

/-- A greedy class star followed by a separator that the class also contains: the last
separator wins. -/
theorem star_last_sep {p : Char → Bool} {sep : Char} {a b : Str}
    {k : Str → Str → Option β} {x : β} (hsep : p sep = true)
    (ha : ∀ c ∈ a, p c = true) (hb : sep ∉ b) (hk : k a b = some x) :
    star p (a ++ sep :: b) (fun w r => lit [sep] r (fun r' => k w r')) = some x := by
  apply star_append ha
  have hnone : star p b (fun w r => lit [sep] r (fun r' => k (a ++ sep :: w) r')) = none := by
    apply star_eq_none
    intro w r hwr
    cases r with
    | nil => rfl
    | cons d r =>
      have : sep ≠ d := by
        intro h; subst h; apply hb; rw [← hwr]; simp
      simp [lit, this]
  simp only [star, hsep, if_true]
  rw [hnone]
  simp [lit, hk]

end Verif.Re
