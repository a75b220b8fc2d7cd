import Verif.Py.Basic
/-
Classes of on-the-fly analysis plugins, `scaks/plugins`.
-/
namespace Verif
open Dict

/-- What a name in the body of a plugin class may be bound to. `bound` are functions the user wrote, `noop` the
functions the metaclass puts in, `raiser` those of the base class.
Models: `scaks/plugins/metaclasses.py` 10-29, `scaks/plugins/analysis.py` 17-53. -/
inductive ClassAttr
  | bound (id : Nat)
  | noop
  | raiser
  | nothing
  | int (n : Int)
  | bool (b : Bool)
  | other
  deriving DecidableEq

/-- `callable(value)`; other values are not callable.
Models: `scaks/plugins/metaclasses.py` 18. -/
def ClassAttr.callable : ClassAttr → Bool
  | .bound _ | .noop | .raiser => true
  | _ => false

/-- A class as the list of the dictionaries of it and its bases, in the order in which names are looked up.
Models: `scaks/plugins/metaclasses.py` 34. -/
abbrev Mro := List (Dict Str ClassAttr)

/-- The value a name has in a class.
Models: `scaks/solvers/steady_state_solver.py` 860-861, 924-928, 955-956, where the names are used. -/
def classLookup (m : Mro) (name : Str) : Option ClassAttr := m.findSome? fun d => get? d name

/-- The check of the interval: exactly the type `int`, positive.
Models: `scaks/plugins/metaclasses.py` 11-14. -/
def checkPluginInterval : Option ClassAttr → Py Unit
  | none => .ok ()
  | some (.int n) => if n ≤ 0 then .error .TypeError else .ok ()
  | some _ => .error .TypeError

/-- One round of the loop over the methods.
Models: `scaks/plugins/metaclasses.py` 16-29. -/
def defaultMethod (attrs : Dict Str ClassAttr) (name : Str) : Py (Dict Str ClassAttr) :=
  match get? attrs name with
  | none => .ok (Dict.set attrs name .noop)
  | some .nothing => .ok (Dict.set attrs name .noop)
  | some v => if v.callable then .ok attrs else .error .AttributeError

/-- The names of the methods of a plugin.
Models: `scaks/plugins/metaclasses.py` 16. -/
def pluginMethods : List Str := [str! "setup", str! "register_step", str! "finalize"]

/-- `AnalysisMeta.__new__`: a class with the given bases and body. The attribute `logger` is left out.
Models: `scaks/plugins/metaclasses.py` 7-34. -/
def newPlugin (bases : Mro) (attrs : Dict Str ClassAttr) : Py Mro := do
  checkPluginInterval (get? attrs (str! "interval"))
  let attrs ← pluginMethods.foldlM defaultMethod attrs
  pure (attrs :: bases)

/-- The body of `OnTheFlyAnalysis`.
Models: `scaks/plugins/analysis.py` 7-53. -/
def baseBody : Dict Str ClassAttr :=
  [(str! "interval", .int 1), (str! "setup", .raiser), (str! "register_step", .raiser), (str! "finalize", .raiser)]

/-- `OnTheFlyAnalysis` itself.
Models: `scaks/plugins/analysis.py` 7-53. -/
def onTheFly : Mro := [baseBody]

/-- A class each of whose bodies, from the base class on, was given in turn.
Models: `scaks/plugins/metaclasses.py` 7-34. -/
def derive (bodies : List (Dict Str ClassAttr)) : Py Mro := bodies.foldlM newPlugin onTheFly

/-- What calling a method of a plugin does for the solver: the user's function, nothing, or an error. A name that is not
there is an `AttributeError`, a value that cannot be called a `TypeError`.
Models: `scaks/solvers/steady_state_solver.py` 860-861, 924-928, 955-956. -/
def callMethod (m : Mro) (name : Str) : Py (Option Nat) :=
  match classLookup m name with
  | none => .error .AttributeError
  | some (.bound id) => .ok (some id)
  | some .noop => .ok none
  | some .raiser => .error .NotImplementedError
  | some _ => .error .TypeError

/-- The test whether a step is analysed: `counter % interval == 0`. `True` and `False` count as numbers.
Models: `scaks/solvers/steady_state_solver.py` 925-926. -/
def stepAnalysed (m : Mro) (counter : Int) : Py Bool :=
  match classLookup m (str! "interval") with
  | none => .error .AttributeError
  | some (.int n) => if n = 0 then .error .ZeroDivisionError else .ok (decide (counter % n = 0))
  | some (.bool b) => if b then .ok true else .error .ZeroDivisionError
  | some _ => .error .TypeError

end Verif
