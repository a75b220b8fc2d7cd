import Verif.Model.DataFile
import Verif.Model.SteadyLoop
/-
Where new guesses come from: the default hybrid method, `scaks/plugins/hybrid_methods.py`, and
`modify_init_guess` of `scaks/solvers/steady_state_solver.py`.
-/
namespace Verif
section
variable {K σ : Type} [Field K] [LinearOrder K]

/-- The property `coverages`: the coverages kept, or zeros.
Models: `scaks/solvers/steady_state_solver.py` 1368-1375. -/
def solverCoverages (nads : Nat) : Option (List K) → List K
  | some c => c
  | none => List.replicate nads 0

/-- The coverages at which `solve_ode` begins: those given, unless there are none or the list is empty; `boltz` is what
`boltzmann_coverages` gives.
Models: `scaks/solvers/steady_state_solver.py` 1244-1252. -/
def odeInitial (nads : Nat) (boltz : Py (List K)) (given : Option (List K)) : Py (List K) :=
  match given with
  | some (c :: cs) => .ok (c :: cs)
  | _ => match boltz with
    | .ok c => .ok c
    | .error e => if e = .IOError then .ok (List.replicate nads 0) else .error e

/-- `solve_ode` without output of the trajectory, from time zero: the time and coverages at the end. `start` initialises
the integrator; `none` if the loop has not ended.
Models: `scaks/solvers/steady_state_solver.py` 1195-1326. -/
def odeEnd (I : Integrator K σ) (start : List K → K → σ) (nads interval : Nat) (boltz : Py (List K)) (tEnd step : K) (fuel : Nat)
    (given : Option (List K)) : Option (Py (K × List K)) :=
  match odeInitial nads boltz given with
  | .error e => some (.error e)
  | .ok c => (solveOde I tEnd step interval false fuel (start c 0)).map (·.1)

/-- `ODE_integration`, the hybrid method of a model that registers no other. The integrator is that of the model's own
energies; the number of the guess is not used.
Models: `scaks/plugins/hybrid_methods.py` 4-27, `scaks/models/micro_kinetic_model.py` 120. -/
def odeIntegration (I : Integrator K σ) (start : List K → K → σ) (nads interval : Nat) (boltz : Py (List K)) (fuel : Nat)
    (kept : Option (List K)) (_N : Nat) : Option (Py (List K)) :=
  (odeEnd I start nads interval boltz 10 (1 / 100) fuel (some (solverCoverages nads kept))).map fun r => r.map (·.2)

/-- `modify_init_guess`; `a` and `b` are the two random numbers, 0 to 10 and 0 to 5.
Models: `scaks/solvers/steady_state_solver.py` 1174-1189. -/
def modifyInitGuess (I : Integrator K σ) (start : List K → K → σ) (nads interval : Nat) (boltz : Py (List K)) (fuel : Nat)
    (a b : Nat) : Option (Py (List K)) :=
  (odeEnd I start nads interval boltz (a : K) (1 / 10 ^ b) fuel none).map fun r => r.map (·.2)

end
end Verif
