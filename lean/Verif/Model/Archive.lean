import Verif.Py.Basic
/-
The archive file of a model and the choice of the starting coverages. Archived values are
immutable; `dump` and `load` stand for `pickle.dump` and `pickle.load`.
-/
namespace Verif
open Dict

/-- The content of the data file, `none` if it does not exist.
Models: `scaks/__init__.py` 48-49, `scaks/models/micro_kinetic_model.py` 217-219. -/
abbrev FileContent (β : Type) := Option (List β)

/-- `archive_data`: the new dictionary of the tool and the new content of the data file.
Models: `scaks/__init__.py` 33-49. -/
def archiveData {V β : Type} (dump : Dict Str V → List β) (whitelist : List Str) (st : Dict Str V × FileContent β) (call : Str × V) :
    Dict Str V × FileContent β :=
  if call.1 ∈ whitelist then
    let d := st.1.set call.1 call.2
    (d, if d = [] then st.2 else some (dump d))
  else st

/-- The contents that are on the disk one after another during a call: opening for writing empties
the file, then the bytes are written.
Models: `scaks/__init__.py` 48-49. The order of bytes is kept; buffering only makes steps larger. -/
def archiveTrace {V β : Type} (dump : Dict Str V → List β) (whitelist : List Str) (st : Dict Str V × FileContent β) (call : Str × V) :
    List (FileContent β) :=
  st.2 :: if call.1 ∈ whitelist then
    let d := st.1.set call.1 call.2
    if d = [] then [] else (List.range ((dump d).length + 1)).map fun n => some ((dump d).take n)
  else []

/-- The contents on the disk during a sequence of calls.
Models: `scaks/__init__.py` 33-49. -/
def archiveHistory {V β : Type} (dump : Dict Str V → List β) (whitelist : List Str) :
    Dict Str V × FileContent β → List (Str × V) → List (FileContent β)
  | st, [] => [st.2]
  | st, call :: calls =>
    archiveTrace dump whitelist st call ++ archiveHistory dump whitelist (archiveData dump whitelist st call) calls

/-- The names that the solvers archive.
Models: `scaks/solvers/mean_field_solver.py` 430, 457, 482, 544, 945, 1029,
`scaks/solvers/steady_state_solver.py` 962, 963, 967. -/
def archivedNames : List Str :=
  [str! "rates", str! "net_rates", str! "reversibilities", str! "tofs", str! "steady_state_coverages",
   str! "steady_state_error", str! "initial_guess"]

/-- The argument `init_cvgs`: nothing, a list or tuple, or another value that counts as true.
Models: `scaks/models/micro_kinetic_model.py` 180, 201-206. -/
inductive InitCvgs (V : Type)
  | none
  | seq (l : List V)
  | other

/-- Where a run starts: given coverages, archived ones, the end of an ODE integration, or nothing.
Models: `scaks/models/micro_kinetic_model.py` 201-235. -/
inductive Start (V A : Type)
  | given (l : List V)
  | archived (a : A)
  | ode
  | nothing
  deriving DecidableEq

/-- The choice of the initial guess, with the flag for the coarse solution. An empty sequence
counts as nothing.
Models: `scaks/models/micro_kinetic_model.py` 201-235. -/
def chooseStart {V A β : Type} (load : List β → Py (Dict Str A)) (nads : Nat) (init : InitCvgs V) (coarse : Bool) (file : FileContent β) :
    Py (Start V A × Bool) :=
  let fallback : Py (Start V A × Bool) :=
    match file with
    | some bytes => do
      let data ← load bytes
      match get? data (str! "steady_state_coverage") with
      | some a => pure (.archived a, false)
      | none => pure (.ode, coarse)
    | none => .ok (.nothing, coarse)
  match init with
  | .none => fallback
  | .seq [] => fallback
  | .seq (x :: l) => if (x :: l).length ≠ nads then .error .ParameterError else .ok (.given (x :: l), coarse)
  | .other => .error .ParameterError

/-- What the solver is called with: low-precision solution only, a coarse solution first, or the
guess itself. Both other ways go through all coverages of the guess, so nothing is a `TypeError`.
Models: `scaks/models/micro_kinetic_model.py` 239-253, `scaks/solvers/steady_state_solver.py` 737. -/
inductive Plan (V A : Type)
  | fsolve (s : Start V A)
  | coarseFirst (s : Start V A)
  | direct (s : Start V A)
  deriving DecidableEq

/-- The plan of a run.
Models: `scaks/models/micro_kinetic_model.py` 201-253. -/
def runPlan {V A β : Type} (load : List β → Py (Dict Str A)) (nads : Nat) (init : InitCvgs V) (fsolve coarse : Bool) (file : FileContent β) :
    Py (Plan V A) := do
  let (s, coarse) ← chooseStart load nads init coarse file
  if fsolve then
    match s with
    | .nothing => .error .TypeError
    | s => pure (.fsolve s)
  else if coarse then
    match s with
    | .nothing => .error .TypeError
    | s => pure (.coarseFirst s)
  else pure (.direct s)

end Verif
