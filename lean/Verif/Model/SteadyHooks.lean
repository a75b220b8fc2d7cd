import Verif.Model.SteadyLoop
/-
The search for steady-state coverages with analysis plugins that have a state and may raise, and the plugin of the example
`examples/MKM/on-the-fly-analysis/on-the-fly-analysis.py`.
-/
namespace Verif

/-- What a plugin can read of the solver: the coverages and the error kept there.
Models: `scaks/solvers/steady_state_solver.py` 920-922, 1358-1366. -/
structure SolverView (K : Type) where
  coverages : Option (List K)
  error : Option K

/-- A plugin: its methods change the state of the plugins and of the files and may raise. They do not change the model.
Models: `scaks/plugins/analysis.py` 7-53, `scaks/solvers/steady_state_solver.py` 860-861, 924-928, 955-956. -/
structure Hook (K σ : Type) where
  interval : Nat
  setup : SolverView K → Nat → σ → σ × Option PyErr
  step : SolverView K → Nat → Nat → σ → σ × Option PyErr
  finalize : SolverView K → Nat → σ → σ × Option PyErr

/-- Calls one after the other, until one raises.
Models: `scaks/solvers/steady_state_solver.py` 860-861, 924-928, 955-956. -/
def callEach {σ : Type} : List (σ → σ × Option PyErr) → σ → σ × Option PyErr
  | [], s => (s, none)
  | f :: fs, s =>
    match f s with
    | (s', none) => callEach fs s'
    | (s', some e) => (s', some e)

section
variable {K σ : Type} [Field K] [LinearOrder K]

/-- What the plugins see.
Models: `scaks/solvers/steady_state_solver.py` 920-922. -/
def SolveState.view (st : SolveState K) : SolverView K := ⟨st.coverages, st.error⟩

/-- The calls of `register_step` in one step.
Models: `scaks/solvers/steady_state_solver.py` 924-928. -/
def hookSteps (hooks : List (Hook K σ)) (v : SolverView K) (inner outer : Nat) : σ → σ × Option PyErr :=
  callEach (hooks.filterMap fun h => if inner % h.interval = 0 then some (h.step v inner outer) else none)

/-- The loop over the iterator, after `nt` steps.
Models: `scaks/solvers/steady_state_solver.py` 863-928; log output is left out. -/
def hookInner (env : SolveEnv K) (hooks : List (Hook K σ)) (outer : Nat) (fin : IterEnd) :
    Nat → SolveState K → σ → List (List K × K) → SolveState K × σ × InnerEnd
  | _, st, s, [] => (st, s, match fin with | .stopped => .failed | .raised e => .raised e | .running => .hangs)
  | nt, st, s, (x, err) :: rest =>
    match env.resid x with
    | .error e => (st, s, .raised e)
    | .ok r =>
      if ¬ env.maxIter < ((nt + 1 : Nat) : Int) ∧ err < env.tol then
        if r < env.tol then
          if x = [] then (st, s, .raised .UnboundLocalError)
          else if x.any (fun c => decide (c < 0)) then (st, s, .failed)
          else ({ st with coverages := some x, error := some err, converged := true }, s, .success)
        else
          let st' := { st with coverages := some x, error := some r }
          match hookSteps hooks st'.view (nt + 1) outer s with
          | (s', none) => hookInner env hooks outer fin (nt + 1) st' s' rest
          | (s', some e) => (st', s', .raised e)
      else if env.maxIter < ((nt + 1 : Nat) : Int) then (st, s, .failed)
      else
        let st' := { st with coverages := some x, error := some err }
        match hookSteps hooks st'.view (nt + 1) outer s with
        | (s', none) => hookInner env hooks outer fin (nt + 1) st' s' rest
        | (s', some e) => (st', s', .raised e)

/-- The `try` block and its `except`.
Models: `scaks/solvers/steady_state_solver.py` 797-953. -/
def hookBody (env : SolveEnv K) (hooks : List (Hook K σ)) (outer : Nat) (c0 : List K) (st : SolveState K) (s : σ) : SolveState K × σ × BodyEnd K :=
  match env.resid c0 with
  | .error e => (st, s, catchZero env st.coverages outer e)
  | .ok r =>
    if r ≤ env.tol ∧ env.singlePt = false then
      match env.goodError c0 with
      | .error e => ({ st with converged := true, coverages := some c0 }, s, catchZero env (some c0) outer e)
      | .ok err => ({ st with converged := true, coverages := some c0, error := some err }, s, .leave)
    else
      match callEach (hooks.map fun h => h.setup st.view outer) s with
      | (s, some e) => (st, s, catchZero env st.coverages outer e)
      | (s, none) =>
        match hookInner env hooks outer (env.newton c0).2 0 st s (env.newton c0).1 with
        | (st, s, .success) => (st, s, .leave)
        | (st, s, .failed) => (st, s, askHybrid env st.coverages outer)
        | (st, s, .raised e) => (st, s, catchZero env st.coverages outer e)
        | (st, s, .hangs) => (st, s, .hangs)

/-- The calls of `finalize` with the number `o`, at the end `b` of a body: an error raised there takes the place of the error,
of leaving the loop, or of another round.
Models: `scaks/solvers/steady_state_solver.py` 954-956. -/
def closeRound (hooks : List (Hook K σ)) (o : Nat) (st : SolveState K) (s : σ) (b : BodyEnd K) : SolveState K × σ × BodyEnd K :=
  match callEach (hooks.map fun h => h.finalize st.view o) s with
  | (s', none) => (st, s', b)
  | (s', some e) => (st, s', .raised e)

/-- The `finally` block: it sees the number of the next guess when there is one.
Models: `scaks/solvers/steady_state_solver.py` 954-956. -/
def hookFinal (hooks : List (Hook K σ)) (outer : Nat) (r : SolveState K × σ × BodyEnd K) : SolveState K × σ × BodyEnd K :=
  match r with
  | (st, s, .hangs) => (st, s, .hangs)
  | (st, s, .again outer' c) => closeRound hooks outer' st s (.again outer' c)
  | (st, s, b) => closeRound hooks outer st s b

/-- The outer loop, at most `n` rounds; `none` if it has not ended.
Models: `scaks/solvers/steady_state_solver.py` 796-969. -/
def hookLoop (env : SolveEnv K) (hooks : List (Hook K σ)) : Nat → Nat → List K → SolveState K → σ → Option (SolveState K × σ × Outcome K)
  | 0, _, _, _, _ => none
  | n + 1, outer, c0, st, s =>
    match hookFinal hooks outer (hookBody env hooks outer c0 st s) with
    | (st', s', .leave) => some ((finish c0 st').1, s', (finish c0 st').2)
    | (st', s', .again outer' c0') => hookLoop env hooks n outer' c0' st' s'
    | (st', s', .raised e) => some (st', s', .raised e)
    | (st', s', .hangs) => some (st', s', .hangs)

/-- `get_steady_state_cvgs`.
Models: `scaks/solvers/steady_state_solver.py` 758-970. -/
def hookSteady (env : SolveEnv K) (hooks : List (Hook K σ)) (constrain : List K → Py (List K)) (n : Nat) (c0 : Option (List K)) (st : SolveState K)
    (s : σ) : Option (SolveState K × σ × Outcome K) :=
  let start : Py (List K) := do
    let c ← match c0 with
      | some c => pure c
      | none => match env.hybrid with
        | none => .error .TypeError
        | some h => h st.coverages 0
    constrain c
  match start with
  | .error e => some (st, s, .raised e)
  | .ok c => hookLoop env hooks n 1 c { st with converged := false } s

end

/-- The file `newton_traj.py`: not there, opened but not written, or with a list of errors.
Models: `examples/MKM/on-the-fly-analysis/on-the-fly-analysis.py` 62-64. -/
inductive DumpFile (K : Type)
  | absent
  | empty
  | errors (l : List K)
  deriving DecidableEq

/-- What the plugin of the example keeps: the errors so far, if `setup` has been called, and the file it writes.
Models: `examples/MKM/on-the-fly-analysis/on-the-fly-analysis.py` 52-64. -/
structure DumpState (K : Type) where
  errors : Option (List K)
  file : DumpFile K
  deriving DecidableEq

/-- `DumpTrajectory`. `float(None)` raises if the solver has no error yet. The file is opened, and so emptied, before the
errors are looked up.
Models: `examples/MKM/on-the-fly-analysis/on-the-fly-analysis.py` 51-65; the message in the log is left out. -/
def dumpTrajectory {K : Type} : Hook K (DumpState K) where
  interval := 1
  setup _ _ s := ({ s with errors := some [] }, none)
  step v _ _ s :=
    match s.errors, v.error with
    | none, _ => (s, some .AttributeError)
    | some _, none => (s, some .TypeError)
    | some l, some e => ({ s with errors := some (l ++ [e]) }, none)
  finalize _ _ s :=
    match s.errors with
    | none => ({ s with file := .empty }, some .AttributeError)
    | some l => ({ s with file := .errors l }, none)

end Verif
