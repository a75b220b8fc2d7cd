import Verif.Model.Rxn
import Verif.Model.DataFile
import Verif.Py.Sort
import Mathlib.Algebra.Field.Defs
/-
Scripts that read the files of lattice runs, `scripts/kmc_plot/plot_tof.py` and
`scripts/kmc_plot/plot_frequencies.py`. Drawing is not modelled: the result is the data given to the
plotting library.
-/
namespace Verif
open Dict

/-- `s.strip(chars)`.
Models: `scripts/kmc_plot/plot_tof.py` 25, 31. -/
def stripSet (chars s : Str) : Str :=
  ((s.dropWhile (decide <| · ∈ chars)).reverse.dropWhile (decide <| · ∈ chars)).reverse

/-- What the two tests on the end of a label select: the direction and the text of the reaction.
Models: `scripts/kmc_plot/plot_tof.py` 24-25, 30-31. -/
def labelReaction (label : Str) : Option (Bool × Str) :=
  if str! "(->)" <:+ label then some (true, stripSet (str! "(->)") label)
  else if str! "(<-)" <:+ label then some (false, stripSet (str! "(<-)") label)
  else none

/-- `RxnEquation(rxn_str).tolist()[-1].chem_state()`.
Models: `scripts/kmc_plot/plot_tof.py` 26-27, 32-33. -/
def finalText (rxn : Str) : Py Str := do
  match (← eqnStates rxn).getLast? with
  | some s => pure s
  | none => .error .IndexError

/-- The loop over the labels from number `idx` on: the numbers of processes that make the product, forward and reverse.
Models: `scripts/kmc_plot/plot_tof.py` 21-35. -/
def tofIndices (production : Str) : Nat → List Str → Py (List Nat × List Nat)
  | _, [] => .ok ([], [])
  | idx, label :: ls =>
    match labelReaction label with
    | none => tofIndices production (idx + 1) ls
    | some (fwd, rxn) => do
      let s ← finalText rxn
      let (f, r) ← tofIndices production (idx + 1) ls
      if production <:+: s then if fwd then pure (idx :: f, r) else pure (f, idx :: r) else pure (f, r)

/-- `rates[idx]` in a sum: only a list of numbers can be used.
Models: `scripts/kmc_plot/plot_tof.py` 42, 44. -/
def rateAt {K : Type} : Elem K → Nat → Py K
  | .nums l, i => match l[i]? with
    | some x => .ok x
    | none => .error .IndexError
  | .str s, i => if i < s.length then .error .TypeError else .error .IndexError
  | .num _, _ => .error .TypeError

/-- The sum over the two lists of numbers.
Models: `scripts/kmc_plot/plot_tof.py` 39-45. -/
def tofOfRow {K : Type} [Field K] (f r : List Nat) (rates : Elem K) : Py K := do
  let a ← f.foldlM (fun s i => do pure (s + (← rateAt rates i))) (0 : K)
  r.foldlM (fun s i => do pure (s - (← rateAt rates i))) a

/-- A label as text; other values have no `endswith`.
Models: `scripts/kmc_plot/plot_tof.py` 24. -/
def labelOf {K : Type} : Elem K → Py Str
  | .str s => .ok s
  | _ => .error .AttributeError

/-- `locs[name]`.
Models: `scripts/kmc_plot/plot_tof.py` 16-18. -/
def localVar {K : Type} (env : Vars K) (v : Str) : Py (List (Elem K)) :=
  match get? env v with
  | some l => .ok l
  | none => .error .KeyError

/-- The data plotted by `plot_tof.py` for a file: times and turnover frequencies. The library rejects lists of different
lengths. Labels are checked to be texts before the loop here; the code does it in the loop.
Models: `scripts/kmc_plot/plot_tof.py` 14-48. -/
def plotTof {K : Type} [Field K] (production : Str) (file : List (Stmt K)) : Py (List (Elem K) × List K) := do
  let env ← execFile file
  let rows ← localVar env (str! "tofs")
  let times ← localVar env (str! "times")
  let processes ← localVar env (str! "processes")
  let labels ← processes.mapM labelOf
  let (f, r) ← tofIndices production 0 labels
  let tofs ← rows.mapM (tofOfRow f r)
  if times.length = tofs.length then pure (times, tofs) else .error .ValueError

/-! ## Frequencies -/

/-- `l[::2]`.
Models: `scripts/kmc_plot/plot_frequencies.py` 17. -/
def evenEntries {A : Type} : List A → List A
  | [] => []
  | [x] => [x]
  | x :: _ :: l => x :: evenEntries l

/-- `l[1::2]`.
Models: `scripts/kmc_plot/plot_frequencies.py` 18. -/
def oddEntries {A : Type} : List A → List A
  | [] => []
  | _ :: l => evenEntries l

/-- The bars of `plot_frequencies.py`: number of places, forward and reverse labels with their occurrences. The division
by two is that of Python 2; Python 3 fails later, at `xrange`.
Models: `scripts/kmc_plot/plot_frequencies.py` 12-20. -/
def plotFrequencies (occ : Dict Str Nat) : Py (Nat × List (Str × Nat) × List (Str × Nat)) := do
  let reactions := sortedSet (keys occ)
  let value := fun r : Str => match get? occ r with
    | some n => (.ok (r, n) : Py (Str × Nat))
    | none => .error .KeyError
  let f ← (evenEntries reactions).mapM value
  let r ← (oddEntries reactions).mapM value
  pure (occ.length / 2, f, r)

end Verif
