import Verif.Model.Rxn
/-
Formulas and states as objects: arguments of other types, and the sum of formulas, `scaks/parsers/rxn_parser.py`.
-/
namespace Verif

/-- What can be given to a method that expects a formula or a state: an object of one of the two classes, with its text, or
something else.
Models: `scaks/parsers/rxn_parser.py` 235, 396. -/
inductive ChemArg
  | formula (f : Formula)
  | state (s : Str)
  | other

/-- What `ChemState.conserve` returns: `True`, or an exception object that is not raised.
Models: `scaks/parsers/rxn_parser.py` 237, 258. -/
inductive Verdict
  | true
  | exception (e : PyErr)
  deriving DecidableEq

/-- `bool(...)`: an object without `__bool__` and `__len__` counts as true.
Models: `scaks/parsers/rxn_parser.py` 237, 258. -/
def Verdict.truth : Verdict → Bool
  | .true => Bool.true
  | .exception _ => Bool.true

/-- `ChemState.conserve`.
Models: `scaks/parsers/rxn_parser.py` 224-258. -/
def stateConserveArg (s : Str) : ChemArg → Py Verdict
  | .state t => do
    let _ ← stateConserve s t
    pure .true
  | _ => .ok (.exception .ParameterError)

/-- `ChemFormula.conserve`.
Models: `scaks/parsers/rxn_parser.py` 386-419. -/
def formulaConserveArg (f : Formula) : ChemArg → Py Bool
  | .formula g => f.conserve g
  | _ => .error .ParameterError

/-- `ChemFormula.__add__`: `self.formula` is a bound method, and a method and a text cannot be added; the other operand is not
looked at before that.
Models: `scaks/parsers/rxn_parser.py` 303-307, 424-428. -/
def formulaAdd (_ : Formula) (_ : ChemArg) : Py Str := .error .TypeError

/-- The text of the sum that `__add__` is meant to make, with the texts of the formulas in place of the methods.
Models: `scaks/parsers/rxn_parser.py` 306. -/
def sumText (f g : Formula) : Str := f.text ++ str! " + " ++ g.text

end Verif
