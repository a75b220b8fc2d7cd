import Verif.Model.DataFile
import Verif.Model.PlotScripts
import Verif.Model.Kmc
import Verif.Model.CreateJobs
import Verif.Py.Sort
import Mathlib.Data.List.Sort
/-
Gathering the results of series of lattice runs: the scripts that read the files of all job directories and write arrays over
the pressures. `float` of a text is a parameter; the directories are those listed by the shell, in its order.
-/
namespace Verif
open Dict

/-! ## One pressure -/

/-- A directory as listed by `find`, with its file of coverages and its file of frequencies, if they exist. Of the
latter only the result of execution and the variable `reaction_rates` are kept.
Models: `scripts/kmc_plot/batch_plot/extract_cvgs.py` 13-24, `scripts/kmc_plot/batch_plot/extract_tofs.py` 12-22. -/
structure SeriesDir (K : Type) where
  name : Str
  cvgs : Option (List (Stmt K))
  freq : Option (Py (Option (Dict Str K)))

/-- `row[-1]` of an entry of `coverages`, added to a number.
Models: `scripts/kmc_plot/batch_plot/extract_cvgs.py` 31. -/
def lastNumber {K : Type} : Elem K → Py K
  | .nums l => match l.getLast? with
    | some x => .ok x
    | none => .error .IndexError
  | .num _ => .error .TypeError
  | .str [] => .error .IndexError
  | .str (_ :: _) => .error .TypeError

/-- `possible_types.index(type_name)`.
Models: `scripts/kmc_plot/batch_plot/extract_cvgs.py` 30. -/
def typeIndex {K : Type} (name : Str) : List (Elem K) → Py Nat
  | [] => .error .ValueError
  | e :: l => match e with
    | .str s => if s = name then .ok 0 else (typeIndex name l).map (· + 1)
    | _ => (typeIndex name l).map (· + 1)

/-- The last coverage of a type.
Models: `scripts/kmc_plot/batch_plot/extract_cvgs.py` 30-31. -/
def typeCoverage {K : Type} (env : Vars K) (types : List (Elem K)) (name : Str) : Py K := do
  let i ← typeIndex name types
  let rows ← localVar env (str! "coverages")
  match rows[i]? with
  | some row => lastNumber row
  | none => .error .IndexError

/-- The coverage of a species: the sum over its types.
Models: `scripts/kmc_plot/batch_plot/extract_cvgs.py` 28-32. -/
def speciesCoverage {K : Type} [Zero K] [Add K] (env : Vars K) (types : List (Elem K)) (names : List Str) : Py K :=
  names.foldlM (fun s n => do pure (s + (← typeCoverage env types n))) (0 : K)

/-- The types of oxygen.
Models: `scripts/kmc_plot/batch_plot/extract_cvgs.py` 10. -/
def oxygenTypes : List Str := [str! "O_s", str! "O_r", str! "O_u", str! "O_d", str! "O_l"]

/-- The types of carbon monoxide: a text between brackets, gone through character by character.
Models: `scripts/kmc_plot/batch_plot/extract_cvgs.py` 11, 29. -/
def monoxideTypes : List Str := [str! "C"]

/-- `float(d[2:])`.
Models: `scripts/kmc_plot/batch_plot/extract_cvgs.py` 33, `scripts/kmc_plot/batch_plot/extract_tofs.py` 32. -/
def dirPressure {K : Type} (toFloat : Str → Option K) (name : Str) : Py K :=
  match toFloat (name.drop 2) with
  | some p => .ok p
  | none => .error .ValueError

/-- What is read from a file of coverages: pressure, coverage of carbon monoxide, coverage of oxygen. Oxygen is first in
the dictionary of the script.
Models: `scripts/kmc_plot/batch_plot/extract_cvgs.py` 23-33. -/
def cvgsRow {K : Type} [Zero K] [Add K] (toFloat : Str → Option K) (name : Str) (file : List (Stmt K)) : Py (K × K × K) := do
  let env ← execFile file
  let types ← localVar env (str! "possible_types")
  let o ← speciesCoverage env types oxygenTypes
  let co ← speciesCoverage env types monoxideTypes
  let p ← dirPressure toFloat name
  pure (p, co, o)

/-- The loop over the directories; those without a file are passed over.
Models: `scripts/kmc_plot/batch_plot/extract_cvgs.py` 17-33. -/
def cvgsRows {K : Type} [Zero K] [Add K] (toFloat : Str → Option K) : List (SeriesDir K) → Py (List (K × K × K))
  | [] => .ok []
  | d :: ds => match d.cvgs with
    | none => cvgsRows toFloat ds
    | some file => do
      let row ← cvgsRow toFloat d.name file
      pure (row :: (← cvgsRows toFloat ds))

/-- `l[indices]`.
Models: `scripts/kmc_plot/batch_plot/extract_cvgs.py` 39-40. -/
def takeAt {A : Type} (l : List A) (indices : List Nat) : Py (List A) :=
  indices.mapM fun i => match l[i]? with
    | some x => .ok x
    | none => .error .IndexError

/-- The arrays that are written: pressures, coverages of carbon monoxide, coverages of oxygen. `np.argsort` is a parameter.
Models: `scripts/kmc_plot/batch_plot/extract_cvgs.py` 35-43. -/
def gatherCvgs {K : Type} [Zero K] [Add K] [LinearOrder K] (toFloat : Str → Option K) (argsort : List K → List Nat)
    (dirs : List (SeriesDir K)) : Py (List K × List K × List K) := do
  let rows ← cvgsRows toFloat dirs
  let p := rows.map (·.1)
  let co ← takeAt (rows.map (·.2.1)) (argsort p)
  let o ← takeAt (rows.map (·.2.2)) (argsort p)
  pure (p.insertionSort (· ≤ ·), co, o)

/-- The sum of the rates of two reactions, given by their places in the sorted list.
Models: `scripts/kmc_plot/batch_plot/extract_tofs.py` 27-30, `scripts/kmc_plot/map_plot/extract_tofs.py` 29-33. -/
def rateSum {K : Type} [Zero K] [Add K] (indices : List Nat) (rates : Dict Str K) : Py K :=
  indices.foldlM (fun s i => match (sortedSet (keys rates))[i]? with
    | none => .error .IndexError
    | some r => match get? rates r with
      | some x => .ok (s + x)
      | none => .error .KeyError) (0 : K)

/-- The loop over the directories for turnover frequencies; a file without rates is passed over.
Models: `scripts/kmc_plot/batch_plot/extract_tofs.py` 16-32. -/
def tofRows {K : Type} [Zero K] [Add K] (toFloat : Str → Option K) : List (SeriesDir K) → Py (List (K × K))
  | [] => .ok []
  | d :: ds => match d.freq with
    | none => tofRows toFloat ds
    | some (.error e) => .error e
    | some (.ok none) => tofRows toFloat ds
    | some (.ok (some rates)) => do
      let tof ← rateSum [0, 2] rates
      let p ← dirPressure toFloat d.name
      pure ((p, tof) :: (← tofRows toFloat ds))

/-- The arrays that are written. The unused import of a module of Python 2 is left out: with Python 3 the script ends there.
Models: `scripts/kmc_plot/batch_plot/extract_tofs.py` 34-41. -/
def gatherTofs {K : Type} [Zero K] [Add K] [LinearOrder K] (toFloat : Str → Option K) (argsort : List K → List Nat)
    (dirs : List (SeriesDir K)) : Py (List K × List K) := do
  let rows ← tofRows toFloat dirs
  let p := rows.map (·.1)
  let tofs ← takeAt (rows.map (·.2)) (argsort p)
  pure (p.insertionSort (· ≤ ·), tofs)

/-! ## Two pressures -/

/-- `s.split(sep)[-1]` for a text starting with the separator: the part after its last occurrence; occurrences are taken
from the left and do not overlap.
Models: `scripts/kmc_plot/map_plot/extract_tofs.py` 16, 21. -/
def lastPart (sep : Str) : Str → Str → Str
  | acc, [] => acc
  | acc, c :: s => if sep ≠ [] ∧ sep <+: c :: s then lastPart sep ((c :: s).drop sep.length) ((c :: s).drop sep.length) else lastPart sep acc s
termination_by _ s => s.length
decreasing_by
  · rename_i h
    have := List.length_pos_iff.mpr h.1
    simp only [List.length_drop, List.length_cons]
    omega
  · simp

/-- `float(name.split(prefix)[-1])`.
Models: `scripts/kmc_plot/map_plot/extract_tofs.py` 16, 21. -/
def namePressure {K : Type} (toFloat : Str → Option K) (pre name : Str) : Py K :=
  match toFloat (lastPart pre name name) with
  | some p => .ok p
  | none => .error .ValueError

/-- The directories of an `ls` whose names start with a prefix, in the order of the listing, with what they hold.
Models: `scripts/kmc_plot/map_plot/extract_tofs.py` 11, 20. -/
def withPrefix {A : Type} (pre : Str) (listing : List (Str × A)) : List (Str × A) := listing.filter fun x => decide (pre <+: x.1)

/-- One row of a map: the pressures of carbon monoxide and the values.
Models: `scripts/kmc_plot/map_plot/extract_tofs.py` 18-35. -/
def mapRow {K A : Type} (toFloat : Str → Option K) (value : A → Py K) (listing : List (Str × A)) : Py (List K × List K) := do
  let pCOs ← (withPrefix (str! "pCO-") listing).mapM fun x => namePressure toFloat (str! "pCO-") x.1
  let values ← (withPrefix (str! "pCO-") listing).mapM fun x => value x.2
  pure (pCOs, values)

/-- The loop over the directories of oxygen pressures: `pCOs` is that of the last one.
Models: `scripts/kmc_plot/map_plot/extract_tofs.py` 13-35. -/
def mapLoop {K A : Type} (toFloat : Str → Option K) (value : A → Py K) :
    Option (List K) → List (Str × List (Str × A)) → Py (Option (List K) × List K × List (List K))
  | pCOs, [] => .ok (pCOs, [], [])
  | _, x :: l => do
    let pO2 ← namePressure toFloat (str! "pO2-") x.1
    let (pCOs, values) ← mapRow toFloat value x.2
    let (last, pO2s, rows) ← mapLoop toFloat value (some pCOs) l
    pure (last, pO2 :: pO2s, values :: rows)

/-- The arrays of a map that are written: pressures of carbon monoxide, pressures of oxygen, and a row of values for every
pressure of oxygen. Rows of different lengths are kept as they are, as by older versions of numpy.
Models: `scripts/kmc_plot/map_plot/extract_tofs.py` 11-42, `scripts/kmc_plot/map_plot/extract_CO_cvgs.py` 10-35,
`scripts/kmc_plot/map_plot/extract_O_cvgs.py` 9-34. -/
def gatherMap {K A : Type} (toFloat : Str → Option K) (value : A → Py K) (listing : List (Str × List (Str × A))) :
    Py (List K × List K × List (List K)) := do
  let (pCOs, pO2s, rows) ← mapLoop toFloat value none (withPrefix (str! "pO2-") listing)
  match pCOs with
  | some l => pure (l, pO2s, rows)
  | none => .error .NameError

/-- The value of a run in the map of turnover frequencies; a missing file is an error.
Models: `scripts/kmc_plot/map_plot/extract_tofs.py` 25-33. -/
def mapTof {K : Type} [Zero K] [Add K] : Option (Py (Option (Dict Str K))) → Py K
  | none => .error .IOError
  | some (.error e) => .error e
  | some (.ok none) => .error .KeyError
  | some (.ok (some rates)) => rateSum [10, 12] rates

/-- `coverages[-k][-1]` of a run.
Models: `scripts/kmc_plot/map_plot/extract_CO_cvgs.py` 24-27, `scripts/kmc_plot/map_plot/extract_O_cvgs.py` 23-26. -/
def mapCvg {K : Type} (k : Nat) : Option (List (Stmt K)) → Py K
  | none => .error .IOError
  | some file => do
    let env ← execFile file
    let rows ← localVar env (str! "coverages")
    match rows.reverse[k - 1]? with
    | some row => lastNumber row
    | none => .error .IndexError

/-- The last row, for carbon monoxide.
Models: `scripts/kmc_plot/map_plot/extract_CO_cvgs.py` 27. -/
def mapCO {K : Type} : Option (List (Stmt K)) → Py K := mapCvg 1

/-- The row before the last, for oxygen.
Models: `scripts/kmc_plot/map_plot/extract_O_cvgs.py` 26. -/
def mapO {K : Type} : Option (List (Stmt K)) → Py K := mapCvg 2

end Verif
