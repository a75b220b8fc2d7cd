import Verif.Props.Symbolic
/-
With which error calls fail: symbolic rates and coverage equations.
-/
namespace Verif
open Dict
set_option linter.unusedSectionVars false

variable {K : Type} [Field K] [DecidableEq K]

/-- **C29** The symbolic coverage equation of one adsorbate in one reaction asks for both by name: a species that is not an adsorbate of the model, or a reaction
that is not one of its reactions, is a `ParameterError` in every state of the solver, prepared or not. -/
theorem C29_arguments (s : SymSolver K) (a rxn : Str) (h : a ∉ s.o.net.ads ∨ rxn ∉ s.o.rxns) : elementaryDthetaSym s a rxn = .error .ParameterError := by
  unfold elementaryDthetaSym
  by_cases ha : a ∉ s.o.net.ads
  · rw [if_pos ha]
  · rw [if_neg ha, if_pos (h.resolve_left ha)]

example : elementaryDthetaSym exSym (str! "CO_g") (str! "CO_g + *_s -> CO_s") = .error .ParameterError :=
  C29_arguments exSym _ _ (.inl (by decide +kernel))
example : elementaryDthetaSym exSym (str! "CO_s") (str! "CO_s -> CO_g + *_s") = .error .ParameterError :=
  C29_arguments exSym _ _ (.inr (by decide +kernel))

/-- **C71** The symbolic rate of a reaction that the model does not have is a `ValueError`; of one that it has, before the symbols are made, an `AttributeError`. -/
theorem C71_arguments (s : SymSolver K) (rxn : Str) : (rxn ∉ s.o.rxns → rateSym s rxn = .error .ValueError) ∧
    (rxn ∈ s.o.rxns → s.free = none → rateSym s rxn = .error .AttributeError) := by
  unfold rateSym
  refine ⟨fun h => by rw [if_pos h], fun h hf => by rw [if_neg (fun hn => hn h), hf]⟩

example : rateSym exSym (str! "CO_s -> CO_g + *_s") = .error .ValueError := (C71_arguments exSym _).1 (by decide +kernel)
example : rateSym exSym (str! "CO_g + *_s -> CO_s") = .error .AttributeError := (C71_arguments exSym _).2 (by decide +kernel) rfl
end Verif
