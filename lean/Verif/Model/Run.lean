import Verif.Model.SteadyLoop
import Verif.Model.Archive
/-
A whole run of a micro-kinetic model and the results it reports,
`scaks/models/micro_kinetic_model.py`.
-/
namespace Verif

/-- The results a model reports. The first three are `None` in a new model, the fourth is not there.
Models: `scaks/models/micro_kinetic_model.py` 125-138, 344-370. -/
structure Reported (K : Type) where
  coverages : Option (List K)
  tofs : Option (List K)
  reversibilities : Option (List K)
  error : Option K
  deriving DecidableEq

/-- The results of a new model.
Models: `scaks/models/micro_kinetic_model.py` 125-138. -/
def Reported.new {K : Type} : Reported K := ⟨none, none, none, none⟩

/-- A model and its solver.
Models: `scaks/models/micro_kinetic_model.py` 125-138, 197. -/
structure RunState (K : Type) where
  rep : Reported K
  solver : SolveState K
  deriving DecidableEq

/-- What a run uses: the model, the rate constants for the energies given, `fsolve` of SciPy from a
start, ODE integration, the search, and the calculation of rate control for a product.
Models: `scaks/models/micro_kinetic_model.py` 180-281; rate constants are taken as known before the
run, the code calculates them in each step from the same energies. -/
structure RunEnv (K : Type) where
  o : MFOwner K
  k : List K × List K
  root : List K → Py (List K)
  ode : Py (List K)
  search : SolveEnv K
  constrain : List K → Py (List K)
  rounds : Nat
  xrc : Str → SolveState K → Option (SolveState K × Py Unit)

section
variable {K : Type} [Field K] [LinearOrder K]

/-- The initial coverages themselves.
Models: `scaks/models/micro_kinetic_model.py` 201-235. -/
def startCoverages (env : RunEnv K) : Start K (List K) → Py (Option (List K))
  | .given l => .ok (some l)
  | .archived a => .ok (some a)
  | .ode => env.ode.map some
  | .nothing => .ok none

/-- `coarse_steady_state_cvgs` and `fsolve_steady_state_cvgs`: going through `None` is a `TypeError`.
Whether `fsolve` converged is not looked at.
Models: `scaks/solvers/steady_state_solver.py` 709-756. -/
def coarseCoverages (env : RunEnv K) : Option (List K) → Py (List K)
  | none => .error .TypeError
  | some c => env.root c

/-- The coverages of a run.
Models: `scaks/models/micro_kinetic_model.py` 237-253. -/
def findCoverages (env : RunEnv K) (plan : Plan K (List K)) (s : SolveState K) : Option (SolveState K × Outcome K) :=
  match plan with
  | .fsolve start =>
    match startCoverages env start >>= coarseCoverages env with
    | .ok x => some (s, .returned x)
    | .error e => some (s, .raised e)
  | .coarseFirst start =>
    match startCoverages env start >>= coarseCoverages env with
    | .ok c => getSteady env.search env.constrain env.rounds (some c) s
    | .error e => some (s, .raised e)
  | .direct start =>
    match startCoverages env start with
    | .ok c => getSteady env.search env.constrain env.rounds c s
    | .error e => some (s, .raised e)

/-- The results calculated from the coverages; they are stored one after the other. `None` as
coverages is a `TypeError` in `get_rates`.
Models: `scaks/models/micro_kinetic_model.py` 251-271. -/
def reportResults (env : RunEnv K) (x : Option (List K)) (st : RunState K) : RunState K × Py Unit :=
  let st := { st with rep := { st.rep with coverages := x } }
  match x with
  | none => (st, .error .TypeError)
  | some x =>
    match getRates env.o env.k x with
    | .error e => (st, .error e)
    | .ok r =>
      match getTof env.o env.k x with
      | .error e => (st, .error e)
      | .ok t =>
        let st := { st with rep := { st.rep with tofs := some t } }
        match Verif.reversibilities r.1 r.2 with
        | .error e => (st, .error e)
        | .ok v =>
          let st := { st with rep := { st.rep with reversibilities := some v } }
          match st.solver.error with
          | none => (st, .error .AttributeError)
          | some e => ({ st with rep := { st.rep with error := some e } }, .ok ())

/-- Degrees of rate control, if they are asked for, of the product named. The values are only
written to the log.
Models: `scaks/models/micro_kinetic_model.py` 273-280. -/
def runXrc (env : RunEnv K) (xrc : Option (Option Str)) (st : RunState K) : Option (RunState K × Py Unit) :=
  match xrc with
  | none => some (st, .ok ())
  | some none => some (st, .error .ParameterError)
  | some (some p) => (env.xrc p st.solver).map fun r => ({ st with solver := r.1 }, r.2)

/-- `MicroKineticModel.run`; `none` if it has not ended. `plan` is the choice of the initial guess.
Models: `scaks/models/micro_kinetic_model.py` 146-281. -/
def runModel (env : RunEnv K) (plan : Py (Plan K (List K))) (xrc : Option (Option Str)) (st : RunState K) :
    Option (RunState K × Py Unit) :=
  match plan with
  | .error e => some (st, .error e)
  | .ok plan =>
    match findCoverages env plan st.solver with
    | none => none
    | some (_, .hangs) => none
    | some (s, .raised e) => some ({ st with solver := s }, .error e)
    | some (s, .none) => some (reportResults env none { st with solver := s })
    | some (s, .returned x) =>
      match reportResults env (some x) { st with solver := s } with
      | (st, .error e) => some (st, .error e)
      | (st, .ok ()) => runXrc env xrc st

/-- Runs one after the other, each with its own energies and arguments, errors caught by the user.
Models: `scaks/models/micro_kinetic_model.py` 146-281. -/
def runAll (st : RunState K) : List (RunEnv K × Py (Plan K (List K)) × Option (Option Str)) → Option (RunState K)
  | [] => some st
  | r :: rest => match runModel r.1 r.2.1 r.2.2 st with
    | none => none
    | some (st, _) => runAll st rest

/-- `model_info`, without the parts that do not depend on a run. Going through `None` is a `TypeError`.
Models: `scaks/models/micro_kinetic_model.py` 311-325. -/
def modelInfo (r : Reported K) : Py (List K × List K × Option (List K)) :=
  match r.coverages, r.tofs with
  | some x, some t => .ok (x, t, r.reversibilities)
  | _, _ => .error .TypeError

/-- The reported error; the other three results never raise.
Models: `scaks/models/micro_kinetic_model.py` 344-370. -/
def reportedError (r : Reported K) : Py K :=
  match r.error with
  | some e => .ok e
  | none => .error .AttributeError

end
end Verif
