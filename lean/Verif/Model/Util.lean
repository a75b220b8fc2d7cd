import Verif.Py.Basic
import Mathlib.Algebra.Order.Field.Basic
import Mathlib.Algebra.Order.Floor.Ring
/-
Work splitting over processes (`scaks/mpicommons.py`), time conversion
(`scaks/utilities/format_utilities.py`) and the numerical Jacobian (`scaks/functions.py`).
-/
namespace Verif

/-! ## Splitting over processes -/

/-- Python `l[i]` for `i ≥ 0`.
Used by: `scaks/mpicommons.py` 67, 91. -/
def pyIndex {α : Type} (l : List α) (i : Nat) : Py α :=
  match l[i]? with
  | some x => .ok x
  | none => .error .IndexError

/-- `for i in range(residual): splited_sizes[i] += 1`.
Models: `scaks/mpicommons.py` 86-87. -/
def bumpFirst : Nat → List Nat → Py (List Nat)
  | 0, l => .ok l
  | _ + 1, [] => .error .IndexError
  | n + 1, x :: l => do
    let l' ← bumpFirst n l
    pure ((x + 1) :: l')

/-- `split_size` on the process `rank` of `procs` for a size that is not negative.
Models: `scaks/mpicommons.py` 71-91. -/
def splitSize (procs rank size : Nat) : Py Nat :=
  if size < procs then
    pyIndex (List.replicate size 1 ++ List.replicate (procs - size) 0) rank
  else if procs = 0 then .error .ZeroDivisionError
  else if size % procs ≠ 0 then do
    let l ← bumpFirst (size % procs) (List.replicate procs (size / procs))
    pyIndex l rank
  else pyIndex (List.replicate procs (size / procs)) rank

/-- The values of `range(start, stop, step)` for a positive step.
Models: `scaks/mpicommons.py` 65. -/
def pyRange (start stop step : Nat) : List Nat :=
  if start < stop ∧ 0 < step then start :: pyRange (start + step) stop step else []
termination_by stop - start

/-- `seq[start: end]` for bounds that are not negative.
Models: `scaks/mpicommons.py` 69. -/
def pySlice {α : Type} (l : List α) (start stop : Nat) : List α := (l.take stop).drop start

/-- `split_seq` on the process `rank` of `procs`. `range` with step zero raises `ValueError`.
Models: `scaks/mpicommons.py` 59-69. -/
def splitSeq {α : Type} (procs rank : Nat) (seq : List α) : Py (List α) :=
  if procs = 0 then .error .ZeroDivisionError
  else if seq.length / procs = 0 then .error .ValueError
  else do
    let starts := pyRange 0 seq.length (seq.length / procs)
    let ends := starts.drop 1 ++ [seq.length]
    let (start, stop) ← pyIndex (starts.zip ends) rank
    pure (pySlice seq start stop)

/-- `merge_seq`: every process gets the concatenation of the parts in the order of the ranks.
Models: `scaks/mpicommons.py` 93-104. -/
def mergeSeq {α : Type} (parts : List (List α)) : List α := parts.flatten

/-- Splitting on all processes and merging.
Models: `scaks/mpicommons.py` 59-69, 93-104. -/
def splitMerge {α : Type} (procs : Nat) (seq : List α) : Py (List α) := do
  let parts ← (List.range procs).mapM fun rank => splitSeq procs rank seq
  pure (mergeSeq parts)

/-! ## Time -/

/-- Python `int(x)`: towards zero.
Used by: `scaks/utilities/format_utilities.py` 77-78. -/
def pyInt {K : Type} [Field K] [LinearOrder K] [FloorRing K] (x : K) : ℤ := if 0 ≤ x then ⌊x⌋ else ⌈x⌉

/-- `convert_time`, with exact numbers.
Models: `scaks/utilities/format_utilities.py` 71-82. -/
def convertTime {K : Type} [Field K] [LinearOrder K] [FloorRing K] (sec : K) : ℤ × ℤ × K :=
  let hours := pyInt (sec / 3600)
  let minutes := pyInt ((sec - hours * 3600) / 60)
  let seconds := sec - hours * 3600 - minutes * 60
  (hours, minutes, seconds)

/-! ## The numerical Jacobian -/

section
variable {K : Type} [Field K] [LinearOrder K]

/-- The `direction` argument.
Models: `scaks/functions.py` 87-94. -/
inductive Direction | left | right | other
  deriving DecidableEq

/-- The step for one variable.
Models: `scaks/functions.py` 82-83, `scaks/solvers/mean_field_solver.py` 600-601. -/
def stepOf (h x : K) : K := max |h * x| h

/-- Difference quotient with respect to the variable `j`; with another direction the name `Jj` is
unbound in the first round.
Models: `scaks/functions.py` 80-94. -/
def diffColumn (f : List K → Py (List K)) (x fx : List K) (h : K) (dir : Direction) (j : Nat) : Py (List K) :=
  match x[j]? with
  | none => .error .IndexError
  | some xj =>
    let d := stepOf h xj
    match dir with
    | .left => do
      let fxj ← f (x.set j (xj - d))
      if -d = 0 then .error .ZeroDivisionError
      else pure (List.zipWith (fun a b => (a - b) / (-d)) fxj fx)
    | .right => do
      let fxj ← f (x.set j (xj + d))
      if d = 0 then .error .ZeroDivisionError
      else pure (List.zipWith (fun a b => (a - b) / d) fxj fx)
    | .other => .error .UnboundLocalError

/-- `numerical_jacobian`: the matrix as a list of columns, exact numbers.
Models: `scaks/functions.py` 58-98. -/
def numericalJacobian (f : List K → Py (List K)) (x : List K) (h : K) (dir : Direction) : Py (List (List K)) := do
  let fx ← f x
  (List.range x.length).mapM (diffColumn f x fx h dir)

/-- `classified_numerical_jacobian`: differences to the right for the first `inter` variables, the
others to the left.
Models: `scaks/solvers/mean_field_solver.py` 579-614. -/
def classifiedJacobian (inter : Nat) (f : List K → Py (List K)) (x : List K) (h : K) : Py (List (List K)) := do
  let fx ← f x
  (List.range x.length).mapM fun j => diffColumn f x fx h (if j + 1 ≤ inter then .right else .left) j

end
end Verif
