import Verif.Model.DataFile
import Verif.Model.PlotScripts
import Mathlib.Algebra.Field.Defs
/-
The data plotted from files of coverages, of lattice runs and of ODE integrations.
-/
namespace Verif
open Dict

/-! ## Lattice runs -/

/-- The numbers of a list for an array of numbers; a nested list or a text gives no such array.
Models: `scripts/kmc_plot/plot_merged_coverages.py` 23-27, 35-41. -/
def numsOf {K : Type} (l : List (Elem K)) : Py (List K) :=
  l.mapM fun e => match e with
    | .num x => .ok x
    | _ => .error .ValueError

/-- `a += np.array(cvgs)`: lists of the same length, or a list of one number.
Models: `scripts/kmc_plot/plot_merged_coverages.py` 23, 25, 27. -/
def addCurve {K : Type} [Add K] (a : List K) : Elem K → Py (List K)
  | .nums l =>
    if l.length = a.length then .ok (List.zipWith (· + ·) a l)
    else match l with
      | [x] => .ok (a.map (· + x))
      | _ => .error .ValueError
  | .num x => .ok (a.map (· + x))
  | .str _ => .error .TypeError

/-- The three curves: carbon monoxide, oxygen, empty sites.
Models: `scripts/kmc_plot/plot_merged_coverages.py` 20. -/
structure Merged (K : Type) where
  co : List K
  o : List K
  vac : List K
  deriving DecidableEq

/-- One type: its first letter decides.
Models: `scripts/kmc_plot/plot_merged_coverages.py` 22-27. -/
def mergeType {K : Type} [Add K] (m : Merged K) (sp : Str) (cvgs : Elem K) : Py (Merged K) :=
  if str! "O" <+: sp then do pure { m with o := ← addCurve m.o cvgs }
  else if str! "C" <+: sp then do pure { m with co := ← addCurve m.co cvgs }
  else if str! "V" <+: sp then do pure { m with vac := ← addCurve m.vac cvgs }
  else .ok m

/-- The loop over the types and their coverages.
Models: `scripts/kmc_plot/plot_merged_coverages.py` 21-27. -/
def mergeLoop {K : Type} [Add K] : Merged K → List (Elem K × Elem K) → Py (Merged K)
  | m, [] => .ok m
  | m, (sp, cvgs) :: l => do
    let s ← labelOf sp
    mergeLoop (← mergeType m s cvgs) l

/-- `np.mean`; of nothing it is no number.
Models: `scripts/kmc_plot/plot_merged_coverages.py` 29-30. -/
def meanOf {K : Type} [Field K] (l : List K) : Option K := if l = [] then none else some (l.sum / (l.length : K))

/-- What is drawn: the steps, the times, the curves, and the averages of carbon monoxide and oxygen. The limits of the axes need a
last step and a last time; the library rejects lists of different lengths.
Models: `scripts/kmc_plot/plot_merged_coverages.py` 11-71. -/
def plotMerged {K : Type} [Field K] (file : List (Stmt K)) : Py (List K × List K × Merged K × Option K × Option K) := do
  let env ← execFile file
  let times ← localVar env (str! "times")
  let steps ← localVar env (str! "steps")
  let coverages ← localVar env (str! "coverages")
  let types ← localVar env (str! "possible_types")
  let zeros := List.replicate steps.length (0 : K)
  let m ← mergeLoop ⟨zeros, zeros, zeros⟩ (types.zip coverages)
  let s ← numsOf steps
  if s = [] then .error .IndexError else pure ()
  let t ← numsOf times
  if t.length ≠ s.length then .error .ValueError else pure ()
  pure (s, t, m, meanOf m.o, meanOf m.co)

/-! ## ODE integrations -/

/-- `coverages[:, j]` of an array of rows.
Models: `scripts/mkm_plot/plot_ode_coverages.py` 28-30. -/
def column {K : Type} (rows : List (List K)) (j : Nat) : Py (List K) :=
  rows.mapM fun r => match r[j]? with
    | some x => .ok x
    | none => .error .IndexError

/-- The three curves: the first adsorbate, the second, and what is left of one. `names` are the arguments of the command line, only
their number matters, and a wrong number ends the script with a message (`none`). Without rows the check of their number or the
column fails; rows of different lengths are not modelled beyond the columns that are read.
Models: `scripts/mkm_plot/plot_ode_coverages.py` 10-31. -/
def odeCurves {K : Type} [Field K] (names : List Str) (rows : List (List K)) : Py (Option (List K × List K × List K)) :=
  match rows with
  | [] => .error .IndexError
  | r :: _ =>
    if names ≠ [] ∧ names.length ≠ r.length then .ok none
    else do
      let co ← column rows 0
      let o ← column rows 1
      pure (some (co, o, List.zipWith (fun a b => 1 - a - b) co o))

end Verif
