import Verif.Py.Sort
import Verif.Lemmas.Chars
namespace Verif

/-- Order of texts, independently of the model: one is a proper beginning of the other, or after a common
beginning it has the character with the smaller code point. -/
def Before (a b : Str) : Prop :=
  (∃ c t, b = a ++ c :: t) ∨
  ∃ p c d s t, a = p ++ c :: s ∧ b = p ++ d :: t ∧ c.toNat < d.toNat

theorem strLt_iff_before (a b : Str) : strLt a b = true ↔ Before a b := by
  induction a generalizing b with
  | nil =>
    cases b with
    | nil =>
      constructor
      · intro h; cases h
      · rintro (⟨c, t, h⟩ | ⟨p, c, d, s, t, h, -, -⟩)
        · cases h
        · cases p <;> cases h
    | cons d b => exact ⟨fun _ => Or.inl ⟨d, b, rfl⟩, fun _ => rfl⟩
  | cons c a ih =>
    cases b with
    | nil =>
      constructor
      · intro h; cases h
      · rintro (⟨c, t, h⟩ | ⟨p, c, d, s, t, -, h, -⟩)
        · cases h
        · cases p <;> cases h
    | cons d b =>
      by_cases e : c = d
      · subst e
        rw [show strLt (c :: a) (c :: b) = strLt a b by simp [strLt], ih]
        constructor
        · rintro (⟨x, t, h⟩ | ⟨p, x, y, s, t, h1, h2, h3⟩)
          · exact Or.inl ⟨x, t, by rw [h]; rfl⟩
          · exact Or.inr ⟨c :: p, x, y, s, t, by rw [h1]; rfl, by rw [h2]; rfl, h3⟩
        · rintro (⟨x, t, h⟩ | ⟨p, x, y, s, t, h1, h2, h3⟩)
          · injection h with _ h
            exact Or.inl ⟨x, t, h⟩
          · cases p with
            | nil =>
              injection h1 with e1 _
              injection h2 with e2 _
              rw [← e1, ← e2] at h3; omega
            | cons z p =>
              injection h1 with _ h1
              injection h2 with _ h2
              exact Or.inr ⟨p, x, y, s, t, h1, h2, h3⟩
      · rw [show strLt (c :: a) (d :: b) = decide (c.toNat < d.toNat) by simp [strLt, e]]
        rw [decide_eq_true_iff]
        constructor
        · intro h; exact Or.inr ⟨[], c, d, a, b, rfl, rfl, h⟩
        · rintro (⟨x, t, h⟩ | ⟨p, x, y, s, t, h1, h2, h3⟩)
          · injection h with h _
            exact absurd h.symm e
          · cases p with
            | nil =>
              injection h1 with e1 _
              injection h2 with e2 _
              rw [e1, e2]; exact h3
            | cons z p =>
              injection h1 with e1 _
              injection h2 with e2 _
              exact absurd (e1.trans e2.symm) e

theorem strLt_irrefl (a : Str) : strLt a a = false := by
  induction a with
  | nil => rfl
  | cons c a ih => simp [strLt, ih]

theorem strLt_trans {a b c : Str} (h1 : strLt a b = true) (h2 : strLt b c = true) :
    strLt a c = true := by
  induction a generalizing b c with
  | nil =>
    cases b with
    | nil => simp [strLt] at h1
    | cons y b =>
      cases c with
      | nil => simp [strLt] at h2
      | cons z c => rfl
  | cons x a ih =>
    cases b with
    | nil => simp [strLt] at h1
    | cons y b =>
      cases c with
      | nil => simp [strLt] at h2
      | cons z c =>
        simp only [strLt] at *
        split at h1 <;> split at h2
        · rename_i e1 e2; subst e1; subst e2; simp [ih h1 h2]
        · rename_i e1 e2; subst e1; simp only [e2, if_false]; exact h2
        · rename_i e1 e2; subst e2; simp only [e1, if_false]; exact h1
        · rename_i e1 e2
          simp only [decide_eq_true_eq] at h1 h2
          have : x ≠ z := by rintro rfl; omega
          simp only [this, if_false, decide_eq_true_eq]; omega

theorem strLt_total {a b : Str} (h : a ≠ b) : strLt a b = true ∨ strLt b a = true := by
  induction a generalizing b with
  | nil =>
    cases b with
    | nil => exact absurd rfl h
    | cons y b => left; rfl
  | cons x a ih =>
    cases b with
    | nil => right; rfl
    | cons y b =>
      simp only [strLt]
      by_cases e : x = y
      · subst e
        simp only [if_true]
        exact ih (fun h' => h (by rw [h']))
      · have e' : ¬ y = x := fun h => e h.symm
        simp only [e, e', if_false, decide_eq_true_eq]
        have : ¬ x.toNat = y.toNat := fun h => e ((char_eq_iff x y).mpr h)
        omega

/-- Strictly increasing. -/
abbrev StrSorted (l : List Str) : Prop := l.Pairwise (fun a b => strLt a b = true)

theorem mem_insertUniq {x y : Str} {l : List Str} : y ∈ insertUniq x l ↔ y = x ∨ y ∈ l := by
  induction l with
  | nil => simp [insertUniq]
  | cons z l ih =>
    simp only [insertUniq]
    split
    · rename_i e; subst e; simp
    · split
      · simp
      · simp only [List.mem_cons, ih]
        constructor
        · rintro (h | h | h) <;> simp [h]
        · rintro (h | h | h) <;> simp [h]

theorem sorted_insertUniq {x : Str} {l : List Str} (h : StrSorted l) : StrSorted (insertUniq x l) := by
  induction l with
  | nil => simp [insertUniq, StrSorted]
  | cons z l ih =>
    simp only [insertUniq]
    unfold StrSorted at *
    split
    · exact h
    · rename_i hne
      split
      · rename_i hlt
        rw [List.pairwise_cons] at h ⊢
        refine ⟨?_, List.pairwise_cons.mpr h⟩
        intro a ha
        rcases List.mem_cons.mp ha with rfl | ha
        · exact hlt
        · exact strLt_trans hlt (h.1 a ha)
      · rename_i hlt
        rw [List.pairwise_cons] at h ⊢
        refine ⟨?_, ih h.2⟩
        intro a ha
        rcases mem_insertUniq.mp ha with rfl | ha
        · rcases strLt_total hne with h' | h'
          · exact absurd h' hlt
          · exact h'
        · exact h.1 a ha

theorem mem_sortedSet {y : Str} {l : List Str} : y ∈ sortedSet l ↔ y ∈ l := by
  induction l with
  | nil => simp [sortedSet]
  | cons x l ih =>
    show y ∈ insertUniq x (sortedSet l) ↔ _
    rw [mem_insertUniq, ih, List.mem_cons]

theorem sorted_sortedSet (l : List Str) : StrSorted (sortedSet l) := by
  induction l with
  | nil => exact List.Pairwise.nil
  | cons x l ih => exact sorted_insertUniq ih

theorem StrSorted.nodup {l : List Str} (h : StrSorted l) : l.Nodup := by
  refine List.Pairwise.imp ?_ h
  intro a b hab e
  subst e
  rw [strLt_irrefl] at hab
  cases hab

/-- A strictly increasing list is determined by its members. -/
theorem StrSorted.ext {l k : List Str} (hl : StrSorted l) (hk : StrSorted k)
    (h : ∀ x, x ∈ l ↔ x ∈ k) : l = k := by
  induction l generalizing k with
  | nil =>
    cases k with
    | nil => rfl
    | cons b k => exact absurd ((h b).mpr (by simp)) (by simp)
  | cons a l ih =>
    cases k with
    | nil => exact absurd ((h a).mp (by simp)) (by simp)
    | cons b k =>
      unfold StrSorted at *
      rw [List.pairwise_cons] at hl hk
      have hab : a = b := by
        rcases List.mem_cons.mp ((h a).mp (by simp)) with e | ha
        · exact e
        · rcases List.mem_cons.mp ((h b).mpr (by simp)) with e | hb
          · exact e.symm
          · have h1 := hk.1 a ha
            have h2 := hl.1 b hb
            have := strLt_trans h1 h2
            rw [strLt_irrefl] at this; cases this
      subst hab
      have na : ∀ {m : List Str}, (∀ x ∈ m, strLt a x = true) → a ∉ m := fun hm ha => by
        have := hm a ha; rw [strLt_irrefl] at this; cases this
      rw [ih hl.2 hk.2]
      intro x
      constructor
      · intro hx
        rcases List.mem_cons.mp ((h x).mp (List.mem_cons_of_mem _ hx)) with rfl | hx'
        · exact absurd hx (na hl.1)
        · exact hx'
      · intro hx
        rcases List.mem_cons.mp ((h x).mpr (List.mem_cons_of_mem _ hx)) with rfl | hx'
        · exact absurd hx (na hk.1)
        · exact hx'

end Verif
