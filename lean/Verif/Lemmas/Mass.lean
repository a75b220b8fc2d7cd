import Verif.Lemmas.Symbols
import Verif.Lemmas.Revert
import Mathlib.Algebra.Order.Field.Rat
import Mathlib.Algebra.BigOperators.Group.List.Basic
import Mathlib.Tactic.Ring
import Mathlib.Tactic.NormNum
namespace Verif
open Dict

/-- Whatever is accepted is balanced (no positivity needed in this direction). -/
theorem accepted_balanced {r : Spec.Rxn} {r1 r2 : Bool} (h : r.ok = true)
    (hc : checkConservation (r.text r1 r2) = .ok true) : r.balanced := by
  have hok := rxn_ok_states h
  obtain ⟨s0, rest, hst⟩ : ∃ s0 rest, r.states = s0 :: rest := by
    cases r <;> exact ⟨_, _, rfl⟩
  rw [checkConservation_iff, eqnStates_ofSpec h, hst] at hc
  obtain ⟨f, l, h1, h2⟩ := hc
  cases h1
  have hs0 := hok s0 (by simp [hst])
  have h0 : ∀ t ∈ r.states, balanced2 s0 t := by
    intro t ht
    rw [hst] at ht
    rcases List.mem_cons.mp ht with rfl | ht
    · exact ⟨fun _ => rfl, fun _ => rfl⟩
    · have htk := hok t (by simp [hst, ht])
      have ha := h2 t.text (List.mem_map.mpr ⟨t, ht, rfl⟩)
      rw [accepts_iff] at ha
      obtain ⟨fs, gs, e1, e2, e3, e4⟩ := ha
      rw [stateFormulas_ofSpec hs0] at e1; cases e1
      rw [stateFormulas_ofSpec htk] at e2; cases e2
      constructor
      · intro e
        rw [← count_ofSpec hs0, ← count_ofSpec htk]; simp [val, e3 e]
      · intro x
        rw [← siteCount_ofSpec, ← siteCount_ofSpec]; simp [val, e4 x]
  intro s hs t ht
  exact ⟨fun e => ((h0 s hs).1 e).symm.trans ((h0 t ht).1 e),
    fun x => ((h0 s hs).2 x).symm.trans ((h0 t ht).2 x)⟩

theorem sumMasses_acc (l : List Str) (a : ℚ) :
    sumMasses l a = (sumMasses l 0).map (a + ·) := by
  induction l generalizing a with
  | nil => simp [sumMasses, Except.map]
  | cons e l ih =>
    simp only [sumMasses]
    cases elementMass e with
    | none => rfl
    | some m =>
      simp only
      rw [ih (a + m), ih (0 + m)]
      cases sumMasses l 0 with
      | error e => rfl
      | ok v => simp only [Except.map]; congr 1; ring

theorem sumMasses_append (l k : List Str) :
    sumMasses (l ++ k) 0 = (do let a ← sumMasses l 0; let b ← sumMasses k 0; pure (a + b)) := by
  induction l with
  | nil =>
    simp only [List.nil_append, sumMasses, bind, Except.bind, pure, Except.pure, zero_add]
    cases sumMasses k 0 <;> rfl
  | cons e l ih =>
    simp only [List.cons_append, sumMasses]
    cases elementMass e with
    | none => rfl
    | some m =>
      simp only
      rw [sumMasses_acc (l ++ k), sumMasses_acc l, ih]
      cases sumMasses l 0 with
      | error e => rfl
      | ok a =>
        cases sumMasses k 0 with
        | error e => rfl
        | ok b => simp only [bind, Except.bind, pure, Except.pure, Except.map]; congr 1; ring

theorem sumMasses_ok {l : List Str} {g : Str → ℚ} (h : ∀ e ∈ l, elementMass e = some (g e)) :
    sumMasses l 0 = .ok (l.map g).sum := by
  induction l with
  | nil => rfl
  | cons e l ih =>
    simp only [sumMasses, h e (by simp)]
    rw [sumMasses_acc, ih (fun x hx => h x (by simp [hx]))]
    simp [Except.map]

theorem sumMasses_error {l : List Str} (h : ∃ e ∈ l, elementMass e = none) :
    sumMasses l 0 = .error .ElementSearchingError := by
  induction l with
  | nil => simp at h
  | cons e l ih =>
    simp only [sumMasses]
    cases he : elementMass e with
    | none => rfl
    | some m =>
      obtain ⟨x, hx, hn⟩ := h
      rcases List.mem_cons.mp hx with rfl | hx
      · rw [hn] at he; cases he
      · simp only; rw [sumMasses_acc, ih ⟨x, hx, hn⟩]; rfl

end Verif
