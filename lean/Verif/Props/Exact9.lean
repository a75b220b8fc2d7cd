import Verif.Props.Archive
import Verif.Props.GifRead
/-
Exact conditions for C70 and C135.
-/
namespace Verif
open Dict

/-- No coverages are given: `None`, or an empty sequence. -/
def NotGiven {U : Type} (init : InitCvgs U) : Prop := init = .none ∨ init = .seq []

/-- **C70** When a run gets as far as its solver, exactly: with the right number of coverages given; with an archive that can be read; or with neither, if no low-precision and no coarse
solution is asked for. -/
theorem C70_iff {A U β : Type} (load : List β → Py (Dict Str A)) (nads : Nat) (init : InitCvgs U) (fsolve coarse : Bool) (file : FileContent β) :
    (∃ p, runPlan load nads init fsolve coarse file = .ok p) ↔
      (∃ l, init = .seq l ∧ l ≠ [] ∧ l.length = nads) ∨
      (NotGiven init ∧ ((∃ bytes d, file = some bytes ∧ load bytes = .ok d) ∨ (file = none ∧ fsolve = false ∧ coarse = false))) := by
  have fall : ∀ init : InitCvgs U, NotGiven init → ((∃ p, runPlan load nads init fsolve coarse file = .ok p) ↔
      (∃ bytes d, file = some bytes ∧ load bytes = .ok d) ∨ (file = none ∧ fsolve = false ∧ coarse = false)) := by
    intro init hi
    cases file with
    | none =>
      rcases hi with rfl | rfl <;> cases fsolve <;> cases coarse <;> simp [runPlan, chooseStart, bind, Except.bind, pure, Except.pure]
    | some bytes =>
      cases hl : load bytes with
      | error e => rcases hi with rfl | rfl <;> simp [runPlan, chooseStart, hl, bind, Except.bind]
      | ok d =>
        cases hg : get? d (str! "steady_state_coverage") <;> rcases hi with rfl | rfl <;> cases fsolve <;> cases coarse <;>
          simp [runPlan, chooseStart, hl, hg, bind, Except.bind, pure, Except.pure]
  cases init with
  | none =>
    rw [fall _ (.inl rfl)]
    constructor
    · exact fun h => .inr ⟨.inl rfl, h⟩
    · rintro (⟨l, h, -⟩ | ⟨-, h⟩)
      · cases h
      · exact h
  | seq l =>
    cases l with
    | nil =>
      rw [fall _ (.inr rfl)]
      constructor
      · exact fun h => .inr ⟨.inr rfl, h⟩
      · rintro (⟨l, h, h2, -⟩ | ⟨-, h⟩)
        · cases h; exact absurd rfl h2
        · exact h
    | cons x l =>
      rw [C70_given load nads (x :: l) (by simp) fsolve coarse file]
      constructor
      · rintro ⟨p, hp⟩
        split at hp
        · rename_i h
          exact .inl ⟨_, rfl, by simp, h⟩
        · cases hp
      · rintro (⟨l', h, -, h2⟩ | ⟨h | h, -⟩)
        · cases h
          rw [if_pos h2]
          exact ⟨_, rfl⟩
        · cases h
        · cases h
  | other =>
    constructor
    · rintro ⟨p, hp⟩; cases hp
    · rintro (⟨l, h, -⟩ | ⟨h | h, -⟩) <;> cases h

/-- **C70** The `TypeError` of a first run, exactly, if reading an archive raises none. -/
theorem C70_first_iff {A U β : Type} (load : List β → Py (Dict Str A)) (hload : ∀ bytes, load bytes ≠ .error .TypeError) (nads : Nat) (init : InitCvgs U)
    (fsolve coarse : Bool) (file : FileContent β) :
    runPlan load nads init fsolve coarse file = .error .TypeError ↔ NotGiven init ∧ file = none ∧ (fsolve = true ∨ coarse = true) := by
  have fall : ∀ init : InitCvgs U, NotGiven init → (runPlan load nads init fsolve coarse file = .error .TypeError ↔ file = none ∧ (fsolve = true ∨ coarse = true)) := by
    intro init hi
    cases file with
    | none =>
      rcases hi with rfl | rfl <;> cases fsolve <;> cases coarse <;> simp [runPlan, chooseStart, bind, Except.bind, pure, Except.pure]
    | some bytes =>
      cases hl : load bytes with
      | error e =>
        have : e ≠ .TypeError := fun h => hload bytes (h ▸ hl)
        rcases hi with rfl | rfl <;> simp [runPlan, chooseStart, hl, bind, Except.bind, this]
      | ok d =>
        cases hg : get? d (str! "steady_state_coverage") <;> rcases hi with rfl | rfl <;> cases fsolve <;> cases coarse <;>
          simp [runPlan, chooseStart, hl, hg, bind, Except.bind, pure, Except.pure]
  cases init with
  | none =>
    rw [fall _ (.inl rfl)]
    exact ⟨fun h => ⟨.inl rfl, h⟩, fun h => h.2⟩
  | seq l =>
    cases l with
    | nil =>
      rw [fall _ (.inr rfl)]
      exact ⟨fun h => ⟨.inr rfl, h⟩, fun h => h.2⟩
    | cons x l =>
      rw [C70_given load nads (x :: l) (by simp) fsolve coarse file]
      constructor
      · intro h
        split at h <;> cases h
      · rintro ⟨h | h, -⟩ <;> cases h
  | other =>
    constructor
    · intro h; cases h
    · rintro ⟨h | h, -⟩ <;> cases h

example : NotGiven (.seq [] : InitCvgs Int) ∧ (∀ bytes : List Nat, (fun _ => .ok [] : List Nat → Py (Dict Str Int)) bytes ≠ .error .TypeError) ∧
    runPlan (fun _ => .ok [] : List Nat → Py (Dict Str Int)) 2 (.seq [] : InitCvgs Int) false true none = .error .TypeError ∧
    runPlan (fun _ => .ok [] : List Nat → Py (Dict Str Int)) 2 (.seq [] : InitCvgs Int) false true (some []) = .ok (.coarseFirst .ode) :=
  ⟨.inr rfl, (fun _ h => nomatch h), rfl, rfl⟩

/-- **C135** When frames are left out without an exception, exactly: decoding some frame raises `EOFError`, and all before it can be read. -/
theorem C135_iff {A : Type} (dims : A → Nat) (g : GifFrames A) :
    (∃ images, readFrames dims g = .ok images ∧ images.length < g.frames.length) ↔
      ∃ n : Nat, g.frames[n]? = some (Except.error .EOFError) ∧ ∀ i < n, ∃ a, g.frames[i]? = some (Except.ok a) ∧ dims a ≠ 0 := by
  constructor
  · rintro ⟨images, h, hlt⟩
    obtain ⟨⟨-, h2, h3⟩, h4⟩ := ((C135_frames dims g).1 images).mp h
    refine ⟨images.length, ?_, fun i hi => ⟨images[i], h3 i _ (List.getElem?_eq_getElem hi)⟩⟩
    rcases h4 with ⟨h5, -⟩ | h5 | ⟨h5, -⟩
    · omega
    · exact h5
    · cases h5
  · rintro ⟨n, h1, h2⟩
    have hn : n < g.frames.length := (List.getElem?_eq_some_iff.mp h1).1
    have key : ∀ m ≤ n, ∃ l : List A, ReadUpTo dims g m l := by
      intro m
      induction m with
      | zero => exact fun _ => ⟨[], rfl, Nat.zero_le _, by simp⟩
      | succ m ih =>
        intro hm
        obtain ⟨l, e1, e2, e3⟩ := ih (by omega)
        obtain ⟨a, ha, hd⟩ := h2 m (by omega)
        refine ⟨l ++ [a], by simp [e1], by omega, fun i b hb => ?_⟩
        rcases Nat.lt_trichotomy i l.length with hi | hi | hi
        · rw [List.getElem?_append_left hi] at hb
          exact e3 i b hb
        · subst hi
          rw [List.getElem?_append_right (Nat.le_refl _)] at hb
          simp at hb
          subst hb
          rw [e1]
          exact ⟨ha, hd⟩
        · rw [List.getElem?_eq_none (by simp; omega)] at hb
          cases hb
    obtain ⟨l, hl⟩ := key n (Nat.le_refl _)
    have e := hl.1
    subst e
    exact ⟨l, ((C135_frames dims g).1 l).mpr ⟨hl, .inr (.inl h1)⟩, hn⟩

example : readFrames (fun _ : Nat => 3) ⟨[.ok 1, .error .EOFError, .ok 3], .EOFError⟩ = .ok [1] := rfl

end Verif
