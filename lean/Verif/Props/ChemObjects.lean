import Verif.Model.ChemObjects
import Verif.Props.Rxn
/- C113: formulas and states as objects. -/
namespace Verif

theorem chemFormula_text {s : Str} {f : Formula} (h : chemFormula s = .ok f) : f.text = s := by
  unfold chemFormula at h
  split at h
  · cases h
  · cases h
    rfl

/-- **C113** (partial) The text meant for the sum of two formulas reads as a state with just these two, in order, provided their
texts have no plus sign and no blanks around them. Missing: the sum itself, which cannot be formed (`C113_add_refuted`). -/
theorem C113_text_partial (s t : Str) (f g : Formula) (hf : chemFormula s = .ok f) (hg : chemFormula t = .ok g) (hs : '+' ∉ s) (ht : '+' ∉ t)
    (ts : Trim s) (tt : Trim t) : stateFormulas (sumText f g) = .ok [f, g] := by
  unfold sumText stateFormulas stateSplit
  rw [chemFormula_text hf, chemFormula_text hg]
  have e : s ++ str! " + " ++ t = (s ++ [' ']) ++ '+' :: (' ' :: t) := by simp
  have h1 : '+' ∉ s ++ [' '] := by simp [hs]
  have h2 : '+' ∉ ' ' :: t := by simp [ht]
  rw [e, splitOn_append h1, splitOn_no h2]
  have p1 : strip (s ++ [' ']) = s := by
    have := strip_pad (a := []) (b := [' ']) (s := s) (by simp) (by simp [isSpace]) ts
    simpa using this
  have p2 : strip (' ' :: t) = t := by
    have := strip_pad (a := [' ']) (b := []) (s := t) (by simp [isSpace]) (by simp) tt
    simpa using this
  rw [List.map_cons, List.map_cons, List.map_nil, p1, p2, List.mapM_cons, hf, List.mapM_cons, hg]
  rfl

example : ∃ f g, chemFormula (str! "2CO_s") = .ok f ∧ chemFormula (str! "O2_g") = .ok g ∧ sumText f g = str! "2CO_s + O2_g" ∧
    stateFormulas (sumText f g) = .ok [f, g] := ⟨_, _, rfl, rfl, by decide, by decide⟩

/-- **C113** (refuted) The sum of two formulas cannot be formed. -/
theorem C113_add_refuted (f g : Formula) : formulaAdd f (.formula g) = .error .TypeError ∧ ∀ text, formulaAdd f (.formula g) ≠ .ok text :=
  ⟨rfl, fun _ h => nomatch h⟩

/-- **C113** A formula compared with something that is not a formula is an error, never an answer. -/
theorem C113_formula_types (f : Formula) (a : ChemArg) : (∃ g, a = .formula g) ∨ formulaConserveArg f a = .error .ParameterError := by
  cases a with
  | formula g => exact .inl ⟨g, rfl⟩
  | state s => exact .inr rfl
  | other => exact .inr rfl

/-- **C113** (partial) A state compared with a state is said to be conserved exactly if atoms and sites balance; with anything
else see `C113_state_types_refuted`. -/
theorem C113_states_partial (s t : Spec.State) (hs : s.ok = true) (ht : t.ok = true) (ps : s.pos) (pt : t.pos) :
    (∃ v, stateConserveArg s.text (.state t.text) = .ok v ∧ v.truth = true) ↔
      (∀ e, s.count e = t.count e) ∧ ∀ x, s.siteCount x = t.siteCount x := by
  have eq : stateConserveArg s.text (.state t.text) = (stateConserve s.text t.text >>= fun _ => pure .true) := rfl
  rcases conserve_ofSpec hs ht ps pt with ⟨h, h'⟩ | ⟨h, h'⟩
  · refine ⟨fun _ => h, fun _ => ⟨.true, ?_, rfl⟩⟩
    rw [eq, h']
    rfl
  · refine ⟨fun ⟨v, hv, _⟩ => ?_, fun h'' => absurd h'' h⟩
    rw [eq, h'] at hv
    cases hv

example : exState.ok = true ∧ exState.pos ∧ stateConserveArg exState.text (.state (str! "O2_g + CO_s + 2*_s + O_2s")) = .ok .true ∧
    stateConserveArg exState.text (.state (str! "CO_s")) = .error .ValueError := by
  refine ⟨by decide, ?_, by decide, by decide⟩
  intro f hf
  simp only [exState, List.mem_cons, List.not_mem_nil, or_false] at hf
  rcases hf with rfl | rfl | rfl | rfl
  · exact ⟨by decide, by decide, by intro t ht c n h; simp at ht; subst ht; cases h; decide⟩
  · exact ⟨by decide, by decide, trivial⟩
  · exact ⟨by decide, by decide, by intro t ht c n h; simp at ht; rcases ht with rfl | rfl <;> cases h⟩
  · exact ⟨by decide, by decide, by intro t ht c n h; simp at ht; subst ht; cases h⟩

/-- **C113** (refuted) A state compared with something that is not a state is taken for conserved: the exception is returned, not
raised, and counts as true, whatever the texts are. -/
theorem C113_state_types_refuted (s : Str) (a : ChemArg) (h : ∀ t, a ≠ .state t) : ∃ v, stateConserveArg s a = .ok v ∧ v.truth = true := by
  cases a with
  | state t => exact absurd rfl (h t)
  | formula g => exact ⟨_, rfl, rfl⟩
  | other => exact ⟨_, rfl, rfl⟩

example : (∀ t, ChemArg.other ≠ .state t) ∧ stateConserveArg (str! "CO_s") .other = .ok (.exception .ParameterError) :=
  ⟨(fun _ h => nomatch h), rfl⟩

end Verif
