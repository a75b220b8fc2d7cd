import Verif.Model.GifRead
import Mathlib.Data.List.Forall2
import Mathlib.Tactic.ByContra
/-
C135: reading animated GIF files.
-/
namespace Verif

/-! ### specification -/

/-- The frames before the place `n` could be read, as `images`. -/
def ReadUpTo {A : Type} (dims : A → Nat) (g : GifFrames A) (n : Nat) (images : List A) : Prop :=
  images.length = n ∧ n ≤ g.frames.length ∧ ∀ (i : Nat) (a : A), images[i]? = some a → g.frames[i]? = some (Except.ok a) ∧ dims a ≠ 0

/-- What ends the reading after `n` frames. -/
def EndsWith {A : Type} (dims : A → Nat) (g : GifFrames A) (n : Nat) (e : ReadError) : Prop :=
  (n = g.frames.length ∧ e = g.stop) ∨ g.frames[n]? = some (.error e) ∨ (e = .MemoryError ∧ ∃ a, g.frames[n]? = some (.ok a) ∧ dims a = 0)

/-! ### theorems -/

variable {A B : Type} (dims : A → Nat)

theorem readLoop_spec (stop : ReadError) : ∀ fs : List (Except ReadError A),
    ReadUpTo dims ⟨fs, stop⟩ (readLoop dims stop fs).1.length (readLoop dims stop fs).1 ∧
    EndsWith dims ⟨fs, stop⟩ (readLoop dims stop fs).1.length (readLoop dims stop fs).2
  | [] => ⟨⟨rfl, (Nat.le_refl _), by simp [readLoop]⟩, .inl ⟨rfl, rfl⟩⟩
  | .error e :: fs => ⟨⟨rfl, by simp [readLoop], by simp [readLoop]⟩, .inr (.inl rfl)⟩
  | .ok a :: fs => by
    rw [readLoop]
    by_cases h : dims a = 0
    · rw [if_pos h]
      exact ⟨⟨rfl, by simp, by simp⟩, .inr (.inr ⟨rfl, a, rfl, h⟩)⟩
    · rw [if_neg h]
      obtain ⟨⟨-, h2, h3⟩, h4⟩ := readLoop_spec stop fs
      refine ⟨⟨rfl, by simpa using h2, ?_⟩, ?_⟩
      · intro i b hb
        cases i with
        | zero => cases hb; exact ⟨rfl, h⟩
        | succ i => exact h3 i b hb
      · rcases h4 with ⟨h5, h6⟩ | h5 | ⟨h5, b, h6, h7⟩
        · exact .inl ⟨by simpa using h5, h6⟩
        · exact .inr (.inl h5)
        · exact .inr (.inr ⟨h5, b, h6, h7⟩)

theorem readUpTo_unique {g : GifFrames A} {n m : Nat} {l k : List A} {e f : ReadError} (h1 : ReadUpTo dims g n l) (h2 : EndsWith dims g n e)
    (h3 : ReadUpTo dims g m k) (h4 : EndsWith dims g m f) : l = k ∧ e = f := by
  have le : ∀ {n m : Nat} {l k : List A} {e : ReadError}, ReadUpTo dims g n l → EndsWith dims g n e → ReadUpTo dims g m k → m ≤ n := by
    intro n m l k e h1 h2 h3
    by_contra hlt
    obtain ⟨a, ha⟩ : ∃ a, k[n]? = some a := ⟨_, List.getElem?_eq_getElem (by have := h3.1; omega)⟩
    obtain ⟨b1, b2⟩ := h3.2.2 n a ha
    rcases h2 with ⟨h5, -⟩ | h5 | ⟨-, b, h5, h6⟩
    · have := h3.2.1; omega
    · rw [b1] at h5; cases h5
    · rw [b1] at h5; cases h5; exact b2 h6
  have hnm : n = m := Nat.le_antisymm (le h3 h4 h1) (le h1 h2 h3)
  subst hnm
  constructor
  · apply List.ext_getElem?
    intro i
    by_cases hi : i < n
    · have e1 := List.getElem?_eq_getElem (l := l) (i := i) (by have := h1.1; omega)
      have e2 := List.getElem?_eq_getElem (l := k) (i := i) (by have := h3.1; omega)
      have e3 := (h1.2.2 i _ e1).1
      rw [(h3.2.2 i _ e2).1] at e3
      rw [e1, e2, Except.ok.inj (Option.some.inj e3)]
    · rw [List.getElem?_eq_none (by have := h1.1; omega), List.getElem?_eq_none (by have := h3.1; omega)]
  · rcases h2 with ⟨h5, h6⟩ | h5 | ⟨h5, b, h6, h7⟩ <;> rcases h4 with ⟨k5, k6⟩ | k5 | ⟨k5, c, k6, k7⟩
    · rw [h6, k6]
    · rw [h5, List.getElem?_eq_none (Nat.le_refl _)] at k5; cases k5
    · rw [h5, List.getElem?_eq_none (Nat.le_refl _)] at k6; cases k6
    · rw [k5, List.getElem?_eq_none (Nat.le_refl _)] at h5; cases h5
    · rw [h5] at k5; cases k5; rfl
    · rw [h5] at k6; cases k6
    · rw [k5, List.getElem?_eq_none (Nat.le_refl _)] at h6; cases h6
    · rw [h6] at k5; cases k5
    · rw [h5, k5]

/-- **C135** What is read, for every file: the frames up to the first place where an `EOFError` is raised, in order; at any other exception nothing. -/
theorem C135_frames (g : GifFrames A) :
    (∀ images, readFrames dims g = .ok images ↔ ReadUpTo dims g images.length images ∧ EndsWith dims g images.length .EOFError) ∧
    ∀ e, readFrames dims g = .error e ↔ e ≠ .EOFError ∧ ∃ n images, ReadUpTo dims g n images ∧ EndsWith dims g n e := by
  obtain ⟨s1, s2⟩ := readLoop_spec dims g.stop g.frames
  have hr : readFrames dims g = if (readLoop dims g.stop g.frames).2 = .EOFError then .ok (readLoop dims g.stop g.frames).1
      else .error (readLoop dims g.stop g.frames).2 := by
    unfold readFrames
    generalize readLoop dims g.stop g.frames = r
    obtain ⟨l, e⟩ := r
    cases e <;> rfl
  rw [hr]
  constructor
  · intro images
    constructor
    · intro h
      split at h
      · rename_i he
        cases h
        exact ⟨s1, he ▸ s2⟩
      · cases h
    · rintro ⟨h1, h2⟩
      obtain ⟨e1, e2⟩ := readUpTo_unique dims s1 s2 h1 h2
      rw [if_pos e2, e1]
  · intro e
    constructor
    · intro h
      split at h
      · cases h
      · rename_i he
        cases h
        exact ⟨he, _, _, s1, s2⟩
    · rintro ⟨h0, n, images, h1, h2⟩
      obtain ⟨-, e2⟩ := readUpTo_unique dims s1 s2 h1 h2
      rw [e2, if_neg h0]

/-- **C135** Part: reading raises no `EOFError` before the end of the file. Then all frames are given, in order, or an exception is raised.
Missing: an `EOFError` from a frame is taken for the end (`C135_damaged_refuted`). -/
theorem C135_all_partial (g : GifFrames A) (hfr : ∀ f ∈ g.frames, f ≠ .error .EOFError) (images : List A) :
    readFrames dims g = .ok images ↔ g.frames = images.map .ok ∧ (∀ a ∈ images, dims a ≠ 0) ∧ g.stop = .EOFError := by
  rw [(C135_frames dims g).1]
  constructor
  · rintro ⟨⟨-, h2, h3⟩, h4⟩
    have hdim : ∀ a ∈ images, dims a ≠ 0 := by
      intro a ha
      obtain ⟨i, hi⟩ := List.mem_iff_getElem?.mp ha
      exact (h3 i a hi).2
    rcases h4 with ⟨h5, h6⟩ | h5 | ⟨h5, -⟩
    · refine ⟨?_, hdim, h6.symm⟩
      apply List.ext_getElem?
      intro i
      rw [List.getElem?_map]
      by_cases hi : i < images.length
      · have e := List.getElem?_eq_getElem hi
        rw [(h3 i _ e).1, e]
        rfl
      · rw [List.getElem?_eq_none (by omega), List.getElem?_eq_none (by omega)]
        rfl
    · exact absurd rfl (hfr _ (List.mem_of_getElem? h5))
    · cases h5
  · rintro ⟨h1, h2, h3⟩
    refine ⟨⟨rfl, by rw [h1, List.length_map]; exact Nat.le_refl _, fun i a hi => ⟨?_, h2 a (List.mem_of_getElem? hi)⟩⟩, .inl ⟨by rw [h1, List.length_map], h3.symm⟩⟩
    rw [h1, List.getElem?_map, hi]
    rfl

/-- **C135**, refuted: a file that ends within its third frame. If Pillow reports this by `EOFError`, the first two frames are given as if they were all. -/
theorem C135_damaged_refuted (a b : A) (ha : dims a ≠ 0) (hb : dims b ≠ 0) (fromArray : A → Except ReadError B) (stop : ReadError) :
    readGif dims fromArray true true true true (.ok ⟨[.ok a, .ok b, .error .EOFError], stop⟩) = .ok (.inl [a, b]) := by
  simp [readGif, readFrames, readLoop, ha, hb]

/-- **C135** The whole function: without the libraries or the file it raises; else arrays are the frames, and images are made from them one by one. -/
theorem C135_read (fromArray : A → Except ReadError B) (pil numpy isFile asNumpy : Bool) (opened : Except ReadError (GifFrames A)) (r : List A ⊕ List B) :
    readGif dims fromArray pil numpy isFile asNumpy opened = .ok r ↔ pil = true ∧ numpy = true ∧ isFile = true ∧
      ∃ g images, opened = .ok g ∧ g.frames ≠ [] ∧ readFrames dims g = .ok images ∧
        ((asNumpy = true ∧ r = .inl images) ∨ (asNumpy = false ∧ ∃ l, r = .inr l ∧ List.Forall₂ (fun a b => fromArray a = .ok b) images l)) := by
  have hmap : ∀ (l : List A) (k : List B), l.mapM fromArray = .ok k ↔ List.Forall₂ (fun a b => fromArray a = .ok b) l k := by
    intro l
    induction l with
    | nil =>
      intro k
      constructor
      · intro h; cases h; exact .nil
      · intro h; cases h; rfl
    | cons a l ih =>
      intro k
      rw [List.mapM_cons]
      cases ha : fromArray a with
      | error e =>
        constructor
        · intro h; cases h
        · intro h
          cases h with
          | cons h1 h2 => rw [ha] at h1; cases h1
      | ok b =>
        cases hl : l.mapM fromArray with
        | error e =>
          constructor
          · intro h; cases h
          · intro h
            cases h with
            | cons h1 h2 => rw [(ih _).mpr h2] at hl; cases hl
        | ok l' =>
          constructor
          · intro h
            cases h
            exact .cons ha ((ih _).mp hl)
          · intro h
            cases h with
            | cons h1 h2 =>
              rw [ha] at h1
              cases h1
              rw [(ih _).mpr h2] at hl
              cases hl
              rfl
  unfold readGif
  cases pil
  · simp
  cases numpy
  · simp
  cases isFile
  · simp
  cases opened with
  | error e => simp
  | ok g =>
    cases hf : g.frames with
    | nil => simp [hf]
    | cons f fs =>
      cases hr : readFrames dims g with
      | error e => simp [hf, hr]; rintro h; cases h
      | ok images =>
        cases asNumpy
        · cases hm : images.mapM fromArray with
          | error e =>
            simp [hf, hr, hm, bind, Except.bind]
            intro l hl h2
            rw [(hmap _ _).mpr h2] at hm
            cases hm
          | ok l =>
            have := (hmap _ _).mp hm
            simp [hf, hr, hm, bind, Except.bind, pure, Except.pure]
            constructor
            · rintro rfl
              exact ⟨l, rfl, this⟩
            · rintro ⟨k, rfl, h2⟩
              rw [(hmap _ _).mpr h2] at hm
              cases hm
              rfl
        · simp [hf, hr, bind, Except.bind, pure, Except.pure]
          exact ⟨fun h => h.symm, fun h => h.symm⟩

/-! ### cases -/

example : readFrames (fun _ : Nat => 3) ⟨[.ok 1, .ok 2, .ok 3], .EOFError⟩ = .ok [1, 2, 3] ∧ readFrames (fun _ : Nat => 3) ⟨[.ok 1, .error .IOError, .ok 3], .EOFError⟩ = .error .IOError ∧
    (∀ f ∈ ([.ok 1, .ok 2, .ok 3] : List (Except ReadError Nat)), f ≠ .error .EOFError) := by
  refine ⟨rfl, rfl, ?_⟩
  simp

example : readGif (fun _ : Nat => 3) (fun a => .ok (a + 1)) true true true false (.ok ⟨[.ok 1, .ok 2], .EOFError⟩) = .ok (.inr [2, 3]) := rfl

end Verif
