import Verif.Lemmas.Conserve
namespace Verif
open Re Dict

/-- A text as `RxnEquation.tolist` yields it. -/
def StateText (s : Str) : Prop := (∀ c ∈ s, notAngle c = true) ∧ Trim s

theorem statesAt_sound {s g1 g3 : Str} {g2 : Option Str} (h : statesAt s = some (g1, g2, g3)) :
    (∀ c ∈ g1, notAngle c = true) ∧ (∀ g ∈ g2, ∀ c ∈ g, notAngle c = true) ∧
    (∀ c ∈ g3, notAngle c = true) ∧
    ∃ pre post, s = pre ++ '-' :: '>' :: post := by
  unfold statesAt at h
  obtain ⟨w1, r1, h1, hw1, h⟩ := star_sound h
  obtain ⟨r2, h2, h⟩ := arrow_sound h
  have harrow : ∃ pre post, s = pre ++ '-' :: '>' :: post := by
    rcases h2 with h2 | h2
    · exact ⟨w1 ++ ['<'], r2, by simp [h1, h2]⟩
    · exact ⟨w1, r2, by simp [h1, h2]⟩
  rcases alt_some h with h | h
  · obtain ⟨w3, r3, h3, hw3, h⟩ := star_sound h
    obtain ⟨r4, h4, h⟩ := arrow_sound h
    obtain ⟨w5, r5, h5, hw5, h⟩ := star_sound h
    cases h
    exact ⟨hw1, by simpa using hw3, hw5, harrow⟩
  · obtain ⟨w5, r5, h5, hw5, h⟩ := star_sound h
    cases h
    exact ⟨hw1, by simp, hw5, harrow⟩

theorem eqnStates_text {s : Str} {l : List Str} (h : eqnStates s = .ok l) :
    ∀ t ∈ l, StateText t := by
  unfold eqnStates at h
  split at h
  · cases h
  · rename_i g1 g2 g3 hs
    obtain ⟨pre, suf, -, hm⟩ := search_sound hs
    obtain ⟨h1, h2, h3, -⟩ := statesAt_sound hm
    cases h
    intro t ht
    obtain ⟨g, hg, rfl⟩ := List.mem_map.mp ht
    refine ⟨fun c hc => ?_, strip_isTrim g⟩
    have hc := mem_strip hc
    have hg := (List.mem_filter.mp hg).1
    simp only [List.mem_append, List.mem_singleton, Option.mem_toList] at hg
    rcases hg with (rfl | hg) | rfl
    · exact h1 c hc
    · exact h2 g hg c hc
    · exact h3 c hc

theorem eqnRevert_states {s t : Str} (h : eqnRevert s = .ok t) :
    ∃ l, eqnStates s = .ok l ∧ (l.length = 2 ∨ l.length = 3) ∧ eqnStates t = .ok l.reverse := by
  unfold eqnRevert at h
  cases hs : eqnStates s with
  | error e => rw [hs] at h; cases h
  | ok l =>
    rw [hs] at h
    have htxt := eqnStates_text hs
    refine ⟨l, rfl, ?_⟩
    match l, h, htxt with
    | [], h, _ => cases h
    | [_], h, _ => cases h
    | [a, b], h, htxt =>
      have ha := htxt a (by simp)
      have hb := htxt b (by simp)
      refine ⟨by simp, ?_⟩
      have := eqnStates_two (r1 := false) hb.1 ha.1 hb.2 ha.2
      have ht : t = b ++ (Spec.arrowText false ++ a) := by
        cases h; simp [Spec.arrowText]
      rw [ht, this]; rfl
    | [a, b, c], h, htxt =>
      have ha := htxt a (by simp)
      have hb := htxt b (by simp)
      have hc := htxt c (by simp)
      refine ⟨by simp, ?_⟩
      have := eqnStates_three (r1 := true) (r2 := false) hc.1 hb.1 ha.1 hc.2 hb.2 ha.2
      have ht : t = c ++ (Spec.arrowText true ++ (b ++ (Spec.arrowText false ++ a))) := by
        cases h; simp [Spec.arrowText]
      rw [ht, this]; rfl
    | _ :: _ :: _ :: _ :: _, h, _ => cases h

theorem eqnRevert_of_states {s : Str} {l : List Str} (h : eqnStates s = .ok l)
    (hl : l.length = 2 ∨ l.length = 3) : ∃ t, eqnRevert s = .ok t := by
  unfold eqnRevert
  rw [h]
  match l, hl with
  | [a, b], _ => exact ⟨_, rfl⟩
  | [a, b, c], _ => exact ⟨_, rfl⟩
  | [], hl => simp at hl
  | [_], hl => simp at hl
  | _ :: _ :: _ :: _ :: _, hl => simp at hl

/-! ### acceptance as an equivalence relation -/

/-- Acceptance of a pair of state texts. -/
def Accepts (a b : Str) : Prop := stateConserve a b = .ok true

theorem accepts_iff {a b : Str} : Accepts a b ↔ ∃ fs gs, stateFormulas a = .ok fs ∧
    stateFormulas b = .ok gs ∧ (∀ e, get? (stateElements fs) e = get? (stateElements gs) e) ∧
    (∀ x, get? (stateSites fs) x = get? (stateSites gs) x) := by
  unfold Accepts stateConserve
  cases ha : stateFormulas a with
  | error e => simp [bind, Except.bind]
  | ok fs =>
    cases hb : stateFormulas b with
    | error e => simp [bind, Except.bind]
    | ok gs =>
      have e1 := eqB_iff (nodup_stateElements fs) (nodup_stateElements gs)
      have e2 := eqB_iff (nodup_stateSites fs) (nodup_stateSites gs)
      have hr : (∃ fs' gs', (Except.ok fs : Py _) = .ok fs' ∧ (Except.ok gs : Py _) = .ok gs' ∧
          (∀ e, get? (stateElements fs') e = get? (stateElements gs') e) ∧
          (∀ x, get? (stateSites fs') x = get? (stateSites gs') x)) ↔
          (eqB (stateElements fs) (stateElements gs) = true ∧
            eqB (stateSites fs) (stateSites gs) = true) := by
        rw [e1, e2]
        constructor
        · rintro ⟨fs', gs', h1, h2, h3⟩
          cases h1; cases h2; exact h3
        · intro h; exact ⟨fs, gs, rfl, rfl, h⟩
      rw [hr]
      show conserveFormulas fs gs = _ ↔ _
      unfold conserveFormulas
      cases eqB (stateElements fs) (stateElements gs) <;>
        cases eqB (stateSites fs) (stateSites gs) <;> simp

theorem Accepts.symm {a b : Str} (h : Accepts a b) : Accepts b a := by
  rw [accepts_iff] at *
  obtain ⟨fs, gs, h1, h2, h3, h4⟩ := h
  exact ⟨gs, fs, h2, h1, fun e => (h3 e).symm, fun x => (h4 x).symm⟩

theorem Accepts.trans {a b c : Str} (h : Accepts a b) (h' : Accepts b c) : Accepts a c := by
  rw [accepts_iff] at *
  obtain ⟨fs, gs, h1, h2, h3, h4⟩ := h
  obtain ⟨gs', ks, h1', h2', h3', h4'⟩ := h'
  rw [h2] at h1'; cases h1'
  exact ⟨fs, ks, h1, h2', fun e => (h3 e).trans (h3' e), fun x => (h4 x).trans (h4' x)⟩

theorem stateConserve_ok {a b : Str} {v : Bool} (h : stateConserve a b = .ok v) : v = true := by
  unfold stateConserve at h
  cases ha : stateFormulas a with
  | error e => simp [ha, bind, Except.bind] at h
  | ok fs =>
    cases hb : stateFormulas b with
    | error e => simp [ha, hb, bind, Except.bind] at h
    | ok gs =>
      simp only [ha, hb, bind, Except.bind, conserveFormulas] at h
      split at h
      · cases h
      · split at h
        · cases h
        · cases h; rfl

theorem forM_ok_iff {α : Type} {f : α → Py PUnit} {l : List α} :
    l.forM f = .ok () ↔ ∀ x ∈ l, f x = .ok () := by
  induction l with
  | nil => simp [pure, Except.pure]
  | cons x l ih =>
    simp only [List.mem_cons, forall_eq_or_imp, ← ih]
    cases hx : f x with
    | error e => constructor <;> intro h <;> simp_all [bind, Except.bind]
    | ok u => simp [bind, Except.bind, hx]

theorem checkConservation_iff {s : Str} : checkConservation s = .ok true ↔
    ∃ first rest, eqnStates s = .ok (first :: rest) ∧ ∀ t ∈ rest, Accepts first t := by
  unfold checkConservation
  cases hs : eqnStates s with
  | error e => simp [bind, Except.bind]
  | ok l =>
    cases l with
    | nil => simp [bind, Except.bind]
    | cons first rest =>
      simp only [bind, Except.bind, Except.ok.injEq, List.cons.injEq]
      have key : (rest.forM (fun t => do let _ ← stateConserve first t)) = (.ok () : Py PUnit) ↔
          ∀ t ∈ rest, Accepts first t := by
        rw [forM_ok_iff]
        constructor
        · intro h t ht
          have := h t ht
          unfold Accepts
          cases hc : stateConserve first t with
          | error e => simp [hc, bind, Except.bind] at this
          | ok v => rw [stateConserve_ok hc]
        · intro h t ht
          have := h t ht
          unfold Accepts at this
          rw [this]; rfl
      constructor
      · intro h
        refine ⟨first, rest, ⟨rfl, rfl⟩, key.mp ?_⟩
        split at h
        · cases h
        · rename_i u hu; exact hu
      · rintro ⟨f', r', ⟨rfl, rfl⟩, h⟩
        have := key.mpr h
        simp only [bind, Except.bind] at this
        rw [this]
        rfl

theorem check_revert {s t : Str} (h : eqnRevert s = .ok t) :
    checkConservation t = .ok true ↔ checkConservation s = .ok true := by
  obtain ⟨l, hl, hlen, ht⟩ := eqnRevert_states h
  rw [checkConservation_iff, checkConservation_iff, hl, ht]
  simp only [Except.ok.injEq]
  match l, hlen with
  | [a, b], _ =>
    simp only [List.reverse_cons, List.reverse_nil, List.nil_append, List.cons_append, List.cons.injEq]
    constructor
    · rintro ⟨_, _, ⟨rfl, rfl⟩, hh⟩
      exact ⟨_, _, ⟨rfl, rfl⟩, by simpa using (hh _ (by simp)).symm⟩
    · rintro ⟨_, _, ⟨rfl, rfl⟩, hh⟩
      exact ⟨_, _, ⟨rfl, rfl⟩, by simpa using (hh _ (by simp)).symm⟩
  | [a, b, c], _ =>
    simp only [List.reverse_cons, List.reverse_nil, List.nil_append, List.cons_append, List.cons.injEq]
    constructor
    · rintro ⟨_, _, ⟨rfl, rfl⟩, hh⟩
      have h1 : Accepts c b := hh b (by simp)
      have h2 : Accepts c a := hh a (by simp)
      refine ⟨_, _, ⟨rfl, rfl⟩, ?_⟩
      intro x hx
      simp at hx
      rcases hx with rfl | rfl
      · exact h2.symm.trans h1
      · exact h2.symm
    · rintro ⟨_, _, ⟨rfl, rfl⟩, hh⟩
      have h1 : Accepts a b := hh b (by simp)
      have h2 : Accepts a c := hh c (by simp)
      refine ⟨_, _, ⟨rfl, rfl⟩, ?_⟩
      intro x hx
      simp at hx
      rcases hx with rfl | rfl
      · exact h2.symm.trans h1
      · exact h2.symm

/-! ### formula lists of the reverse -/

theorem mapM_single_error {α β : Type} {f : α → Py β} {e : PyErr}
    (hf : ∀ x, (∃ y, f x = .ok y) ∨ f x = .error e) (l : List α) :
    (∃ ys, l.mapM f = .ok ys ∧ l.map f = ys.map Except.ok) ∨
    (l.mapM f = .error e ∧ ∃ x ∈ l, f x = .error e) := by
  induction l with
  | nil => exact Or.inl ⟨[], rfl, rfl⟩
  | cons x l ih =>
    rw [List.mapM_cons]
    rcases hf x with ⟨y, hy⟩ | hx
    · rcases ih with ⟨ys, h1, h2⟩ | ⟨h1, z, hz, h2⟩
      · exact Or.inl ⟨y :: ys, by rw [hy, h1]; rfl, by simp [hy, h2]⟩
      · exact Or.inr ⟨by rw [hy, h1]; rfl, z, by simp [hz], h2⟩
    · exact Or.inr ⟨by rw [hx]; rfl, x, by simp, hx⟩

theorem map_ok_inj {β : Type} {a b : List β}
    (h : a.map (Except.ok : β → Py β) = b.map Except.ok) : a = b :=
  List.map_injective_iff.mpr (fun _ _ h => Except.ok.inj h) h

theorem mapM_reverse {α β : Type} {f : α → Py β} {e : PyErr}
    (hf : ∀ x, (∃ y, f x = .ok y) ∨ f x = .error e) (l : List α) :
    l.reverse.mapM f = (l.mapM f).map List.reverse := by
  rcases mapM_single_error hf l with ⟨ys, h1, h2⟩ | ⟨h1, x, hx, h2⟩
  · rcases mapM_single_error hf l.reverse with ⟨zs, h3, h4⟩ | ⟨h3, x, hx, h4⟩
    · rw [h1, h3]
      have : zs = ys.reverse := by
        apply map_ok_inj
        rw [← h4, List.map_reverse, h2, List.map_reverse]
      rw [this]; rfl
    · exfalso
      have hm : f x ∈ l.map f := List.mem_map.mpr ⟨x, by simpa using hx, rfl⟩
      rw [h2, h4] at hm
      simp at hm
  · rcases mapM_single_error hf l.reverse with ⟨zs, h3, h4⟩ | ⟨h3, -, -, -⟩
    · exfalso
      have hm : f x ∈ l.reverse.map f := List.mem_map.mpr ⟨x, by simpa using hx, rfl⟩
      rw [h4, h2] at hm
      simp at hm
    · rw [h1, h3]; rfl

theorem chemFormula_or (s : Str) : (∃ f, chemFormula s = .ok f) ∨ chemFormula s = .error .ChemFormulaError := by
  unfold chemFormula
  split
  · exact Or.inr rfl
  · exact Or.inl ⟨_, rfl⟩

theorem stateFormulas_or (s : Str) :
    (∃ f, stateFormulas s = .ok f) ∨ stateFormulas s = .error .ChemFormulaError := by
  unfold stateFormulas
  rcases mapM_single_error chemFormula_or (stateSplit s) with ⟨ys, h, -⟩ | ⟨h, -⟩
  · exact Or.inl ⟨ys, h⟩
  · exact Or.inr h

theorem eqnFormulas_revert {s t : Str} (h : eqnRevert s = .ok t) :
    eqnFormulas t = (eqnFormulas s).map List.reverse := by
  obtain ⟨l, hl, -, ht⟩ := eqnRevert_states h
  unfold eqnFormulas
  rw [hl, ht]
  exact mapM_reverse stateFormulas_or l

end Verif
