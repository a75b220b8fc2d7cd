import Verif.Model.Rounding
import Verif.Model.Constrain
import Verif.Model.SteadyLoop
/-
The search for the steady state with numbers of finite precision.
-/
namespace Verif

/-- `get_residual` for given rate constants. The absolute value and the greatest number are exact.
Models: `scaks/solvers/steady_state_solver.py` 684-705. -/
noncomputable def rdResidual (A : Arith) (o : MFOwner ℝ) (k : List ℝ × List ℝ) (cvgs : List ℝ) : Py ℝ := do
  let ds ← rdSteady A o k cvgs
  pyMax (ds.map fun d => |d|)

/-- What the search uses, with the residual computed in finite precision. Everything else is any function.
Models: `scaks/solvers/steady_state_solver.py` 758-970. -/
noncomputable def rdSolveEnv (A : Arith) (o : MFOwner ℝ) (k : List ℝ × List ℝ) (goodError : List ℝ → Py ℝ)
    (newton : List ℝ → List (List ℝ × ℝ) × IterEnd) (tol : ℝ) (maxIter : Int) (hybrid : Option (Option (List ℝ) → Nat → Py (List ℝ)))
    (plugins : List SolvePlugin) (singlePt : Bool) : SolveEnv ℝ :=
  ⟨rdResidual A o k, goodError, newton, tol, maxIter, hybrid, plugins, singlePt⟩

end Verif
