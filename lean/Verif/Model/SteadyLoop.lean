import Verif.Model.Newton
import Verif.Model.Constrain
import Verif.Model.Jacobian
/-
The search for steady-state coverages and the degrees of rate control,
`scaks/solvers/steady_state_solver.py`. Coverages are lists of numbers.
-/
namespace Verif

/-- An analysis plugin as the solver uses it; the interval is positive.
Models: `scaks/plugins/metaclasses.py` 10-14. -/
structure SolvePlugin where
  interval : Nat
  pos : 0 < interval

/-- A call of a method of a plugin, with the numbers it is given. Plugins do not raise.
Models: `scaks/solvers/steady_state_solver.py` 860-861, 924-928, 955-956. -/
inductive PluginCall
  | setup (plugin outer : Nat)
  | step (plugin inner outer : Nat)
  | finalize (plugin outer : Nat)
  deriving DecidableEq

/-- What is archived after convergence.
Models: `scaks/solvers/steady_state_solver.py` 960-967. -/
inductive SolveArchive (K : Type)
  | coverages (x : List K)
  | error (e : K)
  | guess (c : List K)
  deriving DecidableEq

/-- What the search changes: the coverages and error of the solver, the flag of convergence, calls of
plugins, archived values.
Models: `scaks/solvers/steady_state_solver.py` 776-970. -/
structure SolveState (K : Type) where
  coverages : Option (List K)
  error : Option K
  converged : Bool
  calls : List PluginCall
  archived : List (SolveArchive K)
  deriving DecidableEq

/-- What the search is given. `resid` is the residual with the energies given, `goodError` the error
reported for a good guess, `newton` what the iterator gives for a guess (points and norms). The
hybrid method is handed the model, of which it sees the coverages kept by the solver (`none` if there are none yet), and
the number of the guess; it is asked once for each number, so it may as well be a function of these.
Models: `scaks/solvers/steady_state_solver.py` 783-788, 820-832. -/
structure SolveEnv (K : Type) where
  resid : List K → Py K
  goodError : List K → Py K
  newton : List K → List (List K × K) × IterEnd
  tol : K
  maxIter : Int
  hybrid : Option (Option (List K) → Nat → Py (List K))
  plugins : List SolvePlugin
  singlePt : Bool

/-- The result of the loop over the iterator.
Models: `scaks/solvers/steady_state_solver.py` 863-928. -/
inductive InnerEnd
  | success
  | failed
  | raised (e : PyErr)
  | hangs
  deriving DecidableEq

/-- The result of the search: `None` or coverages, an error, or no end.
Models: `scaks/solvers/steady_state_solver.py` 796-969. -/
inductive Outcome (K : Type)
  | returned (x : List K)
  | none
  | raised (e : PyErr)
  | hangs
  deriving DecidableEq

section
variable {K : Type} [Field K] [LinearOrder K]

/-- The calls of `register_step` in one step, for all plugins.
Models: `scaks/solvers/steady_state_solver.py` 924-928. -/
def stepCalls (plugins : List SolvePlugin) (inner outer : Nat) : List PluginCall :=
  plugins.zipIdx.filterMap fun p => if inner % p.1.interval = 0 then some (.step p.2 inner outer) else none

/-- The loop over the iterator, after `nt` steps.
Models: `scaks/solvers/steady_state_solver.py` 863-928; log output is left out. -/
def innerLoop (env : SolveEnv K) (outer : Nat) (fin : IterEnd) : Nat → SolveState K → List (List K × K) → SolveState K × InnerEnd
  | _, st, [] => (st, match fin with | .stopped => .failed | .raised e => .raised e | .running => .hangs)
  | nt, st, (x, err) :: rest =>
    match env.resid x with
    | .error e => (st, .raised e)
    | .ok r =>
      if ¬ env.maxIter < ((nt + 1 : Nat) : Int) ∧ err < env.tol then
        if r < env.tol then
          if x = [] then (st, .raised .UnboundLocalError)
          else if x.any (fun c => decide (c < 0)) then (st, .failed)
          else ({ st with coverages := some x, error := some err, converged := true }, .success)
        else
          innerLoop env outer fin (nt + 1)
            { st with coverages := some x, error := some r, calls := st.calls ++ stepCalls env.plugins (nt + 1) outer } rest
      else if env.maxIter < ((nt + 1 : Nat) : Int) then (st, .failed)
      else
        innerLoop env outer fin (nt + 1)
          { st with coverages := some x, error := some err, calls := st.calls ++ stepCalls env.plugins (nt + 1) outer } rest

/-- What the body of the outer loop leads to: leaving the loop, another round, an error, no end.
Models: `scaks/solvers/steady_state_solver.py` 797-956. -/
inductive BodyEnd (K : Type)
  | leave
  | again (outer : Nat) (c0 : List K)
  | raised (e : PyErr)
  | hangs

/-- Asking the hybrid method for another guess.
Models: `scaks/solvers/steady_state_solver.py` 933-942, 946-953. -/
def askHybrid (env : SolveEnv K) (kept : Option (List K)) (outer : Nat) : BodyEnd K :=
  match env.hybrid with
  | none => .leave
  | some h => match h kept outer with
    | .ok c => .again (outer + 1) c
    | .error e => .raised e

/-- The end of a body that raised.
Models: `scaks/solvers/steady_state_solver.py` 944-953. -/
def catchZero (env : SolveEnv K) (kept : Option (List K)) (outer : Nat) (e : PyErr) : BodyEnd K :=
  if e = .ZeroDivisionError then askHybrid env kept outer else .raised e

/-- The calls of one method of all plugins.
Models: `scaks/solvers/steady_state_solver.py` 860-861, 955-956. -/
def allCalls (plugins : List SolvePlugin) (call : Nat → PluginCall) : List PluginCall :=
  (List.range plugins.length).map call

/-- The `try` block and its `except`.
Models: `scaks/solvers/steady_state_solver.py` 797-953. -/
def outerBody (env : SolveEnv K) (outer : Nat) (c0 : List K) (st : SolveState K) : SolveState K × BodyEnd K :=
  match env.resid c0 with
  | .error e => (st, catchZero env st.coverages outer e)
  | .ok r =>
    if r ≤ env.tol ∧ env.singlePt = false then
      match env.goodError c0 with
      | .error e => ({ st with converged := true, coverages := some c0 }, catchZero env (some c0) outer e)
      | .ok err => ({ st with converged := true, coverages := some c0, error := some err }, .leave)
    else
      let st := { st with calls := st.calls ++ allCalls env.plugins (.setup · outer) }
      match innerLoop env outer (env.newton c0).2 0 st (env.newton c0).1 with
      | (st, .success) => (st, .leave)
      | (st, .failed) => (st, askHybrid env st.coverages outer)
      | (st, .raised e) => (st, catchZero env st.coverages outer e)
      | (st, .hangs) => (st, .hangs)

/-- The `finally` block: it sees the number of the next guess when there is one.
Models: `scaks/solvers/steady_state_solver.py` 954-956. -/
def finalizeAll (env : SolveEnv K) (outer : Nat) (r : SolveState K × BodyEnd K) : SolveState K :=
  match r.2 with
  | .hangs => r.1
  | .again outer' _ => { r.1 with calls := r.1.calls ++ allCalls env.plugins (.finalize · outer') }
  | _ => { r.1 with calls := r.1.calls ++ allCalls env.plugins (.finalize · outer) }

/-- The end of the function.
Models: `scaks/solvers/steady_state_solver.py` 960-969. -/
def finish (c0 : List K) (st : SolveState K) : SolveState K × Outcome K :=
  if st.converged then
    match st.coverages, st.error with
    | some x, some e => ({ st with archived := st.archived ++ [.coverages x, .error e, .guess c0] }, .returned x)
    | _, _ => (st, .raised .AttributeError)
  else (st, .none)

/-- The outer loop, at most `n` rounds; `none` if it has not ended.
Models: `scaks/solvers/steady_state_solver.py` 796-969. -/
def outerLoop (env : SolveEnv K) : Nat → Nat → List K → SolveState K → Option (SolveState K × Outcome K)
  | 0, _, _, _ => none
  | n + 1, outer, c0, st =>
    let r := outerBody env outer c0 st
    let st' := finalizeAll env outer r
    match r.2 with
    | .leave => some (finish c0 st')
    | .again outer' c0' => outerLoop env n outer' c0' st'
    | .raised e => some (st', .raised e)
    | .hangs => some (st', .hangs)

/-- `get_steady_state_cvgs`; the flag of convergence is local to it.
Models: `scaks/solvers/steady_state_solver.py` 758-970. -/
def getSteady (env : SolveEnv K) (constrain : List K → Py (List K)) (n : Nat) (c0 : Option (List K)) (st : SolveState K) :
    Option (SolveState K × Outcome K) :=
  let start : Py (List K) := do
    let c ← match c0 with
      | some c => pure c
      | none => match env.hybrid with
        | none => .error .TypeError
        | some h => h st.coverages 0
    constrain c
  match start with
  | .error e => some (st, .raised e)
  | .ok c => outerLoop env n 1 c { st with converged := false }

/-- The property `good_guess`, from the guess kept by the last search that succeeded, if any. The
value is looked up, but there is no `return`.
Models: `scaks/solvers/steady_state_solver.py` 964, 1377-1381. -/
def goodGuess (kept : Option (List K)) : Py (Option (List K)) :=
  match kept with
  | none => .error .AttributeError
  | some _ => .ok none

/-- The steady-state equations as a problem for the iterators: `solve` is the linear solver, `norm` the norm.
Models: `scaks/solvers/steady_state_solver.py` 784-787. -/
def ssProblem (o : MFOwner K) (k : List K × List K) (solve : List (List K) → List K → Py (List K)) (norm : List K → K) :
    NewtonProblem (List K) K (List K) (List (List K)) where
  f := steadyStateFunction o k
  J := analyticalJacobian o k
  solve := solve
  norm := norm
  move x l s := x.zipWith (fun a b => a + l * b) s

/-- The search of a model with rate constants `k` for the energies given and `kOwn` for its own, with `MDNewton`; `n`
steps and `m` halvings of the iterator are looked at. The residual in the error of a good guess is taken with the
model's own energies.
Models: `scaks/solvers/steady_state_solver.py` 784-787, 810-813, 829-832. -/
def mdEnv (o : MFOwner K) (k kOwn : List K × List K) (solve : List (List K) → List K → Py (List K)) (norm : List K → K) (m n : Nat)
    (tol : K) (maxIter : Int) (hybrid : Option (Option (List K) → Nat → Py (List K))) (plugins : List SolvePlugin) (singlePt : Bool) : SolveEnv K where
  resid := getResidual o k
  goodError c0 := do
    let fx ← steadyStateFunction o k c0
    let r ← getResidual o kOwn c0
    pure (if r < norm fx then r else norm fx)
  newton c0 :=
    let r := mdNewton (ssProblem o k solve norm) 1 (· / 2) m n c0
    (r.1.map fun y => (y.x, y.norm), r.2)
  tol := tol
  maxIter := maxIter
  hybrid := hybrid
  plugins := plugins
  singlePt := singlePt

/-! ## Degrees of rate control -/

/-- Energies as objects: address zero is the dictionary the user gave.
Models: `scaks/solvers/steady_state_solver.py` 1067-1068, 1103. -/
abbrev EnergyHeap (K : Type) := List (List K × List K)

/-- `copy.deepcopy` of the dictionary at address zero, with both barriers of a reaction shifted.
Models: `scaks/solvers/steady_state_solver.py` 1103-1105. -/
def perturb (heap : EnergyHeap K) (idx : Nat) (eps : K) : Py (EnergyHeap K × (List K × List K)) :=
  match heap with
  | [] => .error .KeyError
  | (gaf, gar) :: rest =>
    if idx < gaf.length ∧ idx < gar.length then
      let e := (gaf.modify idx (· + eps), gar.modify idx (· + eps))
      .ok ((gaf, gar) :: rest ++ [e], e)
    else .error .IndexError

/-- What the calculation of rate control uses: forward rate constants and the turnover frequency of
the gas for given energies, and the search for coverages.
Models: `scaks/solvers/steady_state_solver.py` 1081-1086, 1108-1118. -/
structure XrcEnv (K : Type) where
  kf : List K × List K → Py (List K)
  tof : List K × List K → List K → Py K
  steady : List K × List K → List K → SolveState K → Option (SolveState K × Outcome K)

/-- A degree of rate control; `inf` is a text in the code.
Models: `scaks/solvers/steady_state_solver.py` 1121-1126. -/
inductive XrcValue (K : Type)
  | num (x : K)
  | inf
  deriving DecidableEq

/-- `k/r*(dr/dk)`.
Models: `scaks/solvers/steady_state_solver.py` 1121-1126. -/
def xrcValue (k r dr dk : K) : XrcValue K := if r = 0 ∨ dk = 0 then .inf else .num (k / r * (dr / dk))

/-- `get_XRCi`. A search that ends with `None` makes `get_tof` fail with `TypeError`.
Models: `scaks/solvers/steady_state_solver.py` 1098-1128. -/
def xrcOne (env : XrcEnv K) (eps : K) (guess : List K) (r : K) (kfs : List K) (idx : Nat) (heap : EnergyHeap K) (st : SolveState K) :
    Option (SolveState K × Py (EnergyHeap K × XrcValue K)) :=
  match perturb heap idx eps with
  | .error e => some (st, .error e)
  | .ok (heap, energies) =>
    match kfs[idx]?, env.kf energies with
    | none, _ => some (st, .error .IndexError)
    | _, .error e => some (st, .error e)
    | some k, .ok ks' =>
      match ks'[idx]? with
      | none => some (st, .error .IndexError)
      | some k' =>
        match env.steady energies guess st with
        | none => none
        | some (st, .returned x) =>
          match env.tof energies x with
          | .error e => some (st, .error e)
          | .ok r' => some (st, .ok (heap, xrcValue k r (r' - r) (k' - k)))
        | some (st, .none) => some (st, .error .TypeError)
        | some (st, .raised e) => some (st, .error e)
        | some (_, .hangs) => none

/-- The loop over the reactions.
Models: `scaks/solvers/steady_state_solver.py` 1130-1141. -/
def xrcLoop (env : XrcEnv K) (eps : K) (guess : List K) (r : K) (kfs : List K) : List Nat → EnergyHeap K → SolveState K →
    Option (SolveState K × Py (EnergyHeap K × List (XrcValue K)))
  | [], heap, st => some (st, .ok (heap, []))
  | i :: is, heap, st =>
    match xrcOne env eps guess r kfs i heap st with
    | none => none
    | some (st, .error e) => some (st, .error e)
    | some (st, .ok (heap, v)) =>
      match xrcLoop env eps guess r kfs is heap st with
      | none => none
      | some (st, .error e) => some (st, .error e)
      | some (st, .ok (heap, vs)) => some (st, .ok (heap, v :: vs))

/-- `get_single_XRC` for a model with `n` reactions.
Models: `scaks/solvers/steady_state_solver.py` 1052-1147. -/
def getXRC (env : XrcEnv K) (eps : K) (n : Nat) (heap : EnergyHeap K) (st : SolveState K) :
    Option (SolveState K × Py (EnergyHeap K × List (XrcValue K))) :=
  match st.coverages, heap with
  | none, _ => some (st, .error .AttributeError)
  | _, [] => some (st, .error .KeyError)
  | some guess, energies :: _ =>
    match env.tof energies guess, env.kf energies with
    | .error e, _ => some (st, .error e)
    | _, .error e => some (st, .error e)
    | .ok r, .ok kfs => xrcLoop env eps guess r kfs (List.range n) heap st

end
end Verif
