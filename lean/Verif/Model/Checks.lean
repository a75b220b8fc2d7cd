import Verif.Py.Basic
import Mathlib.Algebra.Order.Field.Basic
import Mathlib.Algebra.Order.Ring.Rat
/-
Checks of setup values, `scaks/utilities/check_utilities.py`, and the lattice of the kMC parser,
`scaks/parsers/kmc_parser.py`. The arguments are Python values of any type.
-/
namespace Verif
open Dict

/-- Python values of setup files. Floats are exact rational numbers (no nan, no infinity).
Models: the arguments of `scaks/utilities/check_utilities.py` 11-192. -/
inductive PyVal
  | none
  | bool (b : Bool)
  | int (z : Int)
  | float (q : Rat)
  | str (s : Str)
  | list (l : List PyVal)
  | tuple (l : List PyVal)
  | dict (d : List (PyVal × PyVal))

namespace PyVal

/-- `isinstance(v, list)`. Used by: `scaks/utilities/check_utilities.py` 32, 159-168. -/
def isList : PyVal → Bool
  | .list _ => true
  | _ => false

/-- `isinstance(v, float)`. Used by: `scaks/utilities/check_utilities.py` 32, 171. -/
def isFloat : PyVal → Bool
  | .float _ => true
  | _ => false

/-- `isinstance(v, str)`. Used by: `scaks/utilities/check_utilities.py` 32, 154, 181. -/
def isStr : PyVal → Bool
  | .str _ => true
  | _ => false

/-- `isinstance(v, int)`: booleans are integers. Used by: `scaks/utilities/check_utilities.py` 32, 190. -/
def isInt : PyVal → Bool
  | .int _ => true
  | .bool _ => true
  | _ => false

/-- `type(v) in (tuple, list)` and the entries. Used by: `scaks/utilities/check_utilities.py` 28, 112. -/
def seq? : PyVal → Option (List PyVal)
  | .list l => some l
  | .tuple l => some l
  | _ => Option.none

end PyVal

/-- `check_sequence`, giving the entries.
Models: `scaks/utilities/check_utilities.py` 11-35. -/
def checkSequence (v : PyVal) (isEntry : PyVal → Bool) : Py (List PyVal) :=
  match v.seq? with
  | none => .error .SetupError
  | some l => if l.all isEntry then .ok l else .error .SetupError

/-! ## Process definitions -/

/-- `equal` of `check_process_coordinates`; the entries are floats here.
Models: `scaks/utilities/check_utilities.py` 206-210. -/
def coordsEqual : List PyVal → List PyVal → Bool
  | .float x :: a, .float y :: b => if |x - y| > 1 / 1000000 then false else coordsEqual a b
  | _, _ => true

/-- The entries of a list, for coordinates that have been checked to be lists.
Models: `scaks/utilities/check_utilities.py` 206, 213. -/
def PyVal.items : PyVal → List PyVal
  | .list l => l
  | _ => []

/-- `check_process_coordinates`: no pair of entries in the order of `combinations` is equal.
Models: `scaks/utilities/check_utilities.py` 195-218. -/
def checkProcessCoordinates : List PyVal → Py Unit
  | [] => .ok ()
  | c :: cs => if cs.any (fun d => coordsEqual c.items d.items) then .error .SetupError else checkProcessCoordinates cs

/-- The check of one coordinate.
Models: `scaks/utilities/check_utilities.py` 170-174. -/
def checkCoordinate (coord : PyVal) : Py Unit := do
  let l ← checkSequence coord PyVal.isFloat
  if l.length ≠ 3 then .error .SetupError else .ok ()

/-- The check of one group of coordinates.
Models: `scaks/utilities/check_utilities.py` 164-177. -/
def checkCoordinates (coords : PyVal) : Py Unit := do
  let l ← checkSequence coords PyVal.isList
  let _ ← l.mapM checkCoordinate
  checkProcessCoordinates l

/-- The check of one of the element lists. The groups are lists at this point.
Models: `scaks/utilities/check_utilities.py` 180-187. -/
def checkElements (v : PyVal) (groups : List PyVal) : Py Unit := do
  let l ← checkSequence v PyVal.isStr
  if groups.any (fun g => l.length != g.items.length) then .error .SetupError else .ok ()

/-- `d[key]` after the key has been checked.
Models: `scaks/utilities/check_utilities.py` 147-150, 153-190. -/
def procGet (d : Dict Str PyVal) (key : Str) : Py PyVal :=
  match get? d key with
  | some v => .ok v
  | none => .error .SetupError

/-- `check_process_dict`.
Models: `scaks/utilities/check_utilities.py` 138-192. -/
def checkProcessDict (d : Dict Str PyVal) : Py (Dict Str PyVal) := do
  let reaction ← procGet d (str! "reaction")
  let group ← procGet d (str! "coordinates_group")
  let before ← procGet d (str! "elements_before")
  let after ← procGet d (str! "elements_after")
  let basis ← procGet d (str! "basis_sites")
  if reaction.isStr = false then .error .SetupError
  else do
    let groups ← checkSequence group PyVal.isList
    let _ ← groups.mapM checkCoordinates
    let _ ← checkElements before groups
    let _ ← checkElements after groups
    let _ ← checkSequence basis PyVal.isInt
    pure d

/-! ## Analysis interval -/

/-- The check of a triple of start, end and step.
Models: `scaks/utilities/check_utilities.py` 122-132. -/
def checkTriple : List PyVal → Py Unit
  | [.int start, .int stop, .int step] =>
    if stop < start then .error .SetupError
    else if step > stop - start then .error .SetupError
    else .ok ()
  | _ => .error .SetupError

/-- The check of one entry of a sequence of intervals; `type(...)` is exact, so booleans are no
integers.
Models: `scaks/utilities/check_utilities.py` 113-132. -/
def checkInterval : PyVal → Py Unit
  | .int _ => .ok ()
  | v => match v.seq? with
    | none => .error .SetupError
    | some l =>
      if l.length ≠ 3 then .error .SetupError else checkTriple l

/-- `check_analysis_interval`.
Models: `scaks/utilities/check_utilities.py` 104-135. -/
def checkAnalysisInterval : PyVal → Py Unit
  | .int _ => .ok ()
  | v => match v.seq? with
    | none => .error .SetupError
    | some l => do
      let _ ← l.mapM checkInterval
      pure ()

/-! ## Species definitions -/

/-- `'pressure' in definitions`, by the type of the right hand side: key, entry or part of a text.
Models: `scaks/utilities/check_utilities.py` 76. -/
def hasPressure : PyVal → Py Bool
  | .dict d => .ok (d.any fun p => match p.1 with | .str s => decide (s = str! "pressure") | _ => false)
  | .list l => .ok (l.any fun p => match p with | .str s => decide (s = str! "pressure") | _ => false)
  | .tuple l => .ok (l.any fun p => match p with | .str s => decide (s = str! "pressure") | _ => false)
  | .str s => .ok (decide (str! "pressure" <:+: s))
  | _ => .error .TypeError

/-- The loop of `check_species_definitions`.
Models: `scaks/utilities/check_utilities.py` 75-79. -/
def checkSpeciesLoop : Dict Str PyVal → Py Unit
  | [] => .ok ()
  | (species, v) :: d =>
    if str! "_g" <:+ species then do
      let b ← hasPressure v
      if b then checkSpeciesLoop d else .error .SetupError
    else checkSpeciesLoop d

/-- `check_species_definitions` of a dictionary with strings as keys.
Models: `scaks/utilities/check_utilities.py` 62-81. -/
def checkSpeciesDefinitions (d : Dict Str PyVal) : Py (Dict Str PyVal) := do
  let _ ← checkSpeciesLoop d
  pure d

/-- `definitions['pressure']`.
Models: `scaks/solvers/mean_field_solver.py` 175. -/
def pressureOf : PyVal → Py PyVal
  | .dict d => match d.find? (fun p => match p.1 with | .str s => decide (s = str! "pressure") | _ => false) with
    | some p => .ok p.2
    | none => .error .KeyError
  | _ => .error .TypeError

/-- `species_definitions[gas]['pressure']`.
Models: `scaks/solvers/mean_field_solver.py` 172-176. -/
def readPressure (d : Dict Str PyVal) (gas : Str) : Py PyVal :=
  match get? d gas with
  | none => .error .KeyError
  | some v => pressureOf v

/-! ## Lattice -/

/-- The part of the model that describes the lattice.
Models: `scaks/models/kmc_model.py` 12-113, read at `scaks/parsers/kmc_parser.py` 84-89. -/
structure LatticeOwner where
  repetitions : List Int
  nbasis : Nat
  siteTypes : List Str
  elementTypes : List Str
  emptyType : Str

/-- `reduce(mul, repetitions)*len(basis_sites)`; `reduce` of an empty sequence is a `TypeError`.
Models: `scaks/parsers/kmc_parser.py` 89, 169. -/
def LatticeOwner.nsite (o : LatticeOwner) : Py Int :=
  match o.repetitions with
  | [] => .error .TypeError
  | r :: rs => .ok (rs.foldl (· * ·) r * o.nbasis)

/-- `[x]*n` for an integer `n`.
Models: `scaks/parsers/kmc_parser.py` 97, 170. -/
def pyRepeat {α : Type} (x : α) (n : Int) : List α := List.replicate n.toNat x

/-- The site file: missing, without `site_types`, or with them.
Models: `scaks/parsers/kmc_parser.py` 100-109, 181-190. -/
inductive DataFile (α : Type)
  | missing
  | without
  | data (x : α)

/-- The default site types.
Models: `scaks/parsers/kmc_parser.py` 91-97. -/
def defaultSiteTypes (o : LatticeOwner) (nsite : Int) : Py (List Str) :=
  match o.siteTypes with
  | [] => .error .IndexError
  | t :: _ => .ok (pyRepeat t nsite)

/-- The site types handed to `KMCSitesMap` by `construct_sitesmap`. The constructors of KMCLib
are not modelled.
Models: `scaks/parsers/kmc_parser.py` 71-134. -/
def constructSitesmap (o : LatticeOwner) (file : DataFile (List Str)) : Py (List Str) := do
  let nsite ← o.nsite
  let types ← (match file with
    | .missing => defaultSiteTypes o nsite
    | .without => defaultSiteTypes o nsite
    | .data l => .ok l)
  if (types.length : Int) ≠ nsite then .error .SetupError
  else if types.any (fun t => !o.siteTypes.contains t) then .error .SetupError
  else pure types

/-- The element types handed to `KMCConfiguration` by `parse_configuration`.
Models: `scaks/parsers/kmc_parser.py` 156-206. -/
def parseConfiguration (o : LatticeOwner) (file : DataFile (List Str)) : Py (List Str) :=
  if !o.elementTypes.contains o.emptyType then .error .SetupError
  else
    match file with
    | .data l => .ok l
    | _ => do
      let nsite ← o.nsite
      pure (pyRepeat o.emptyType nsite)

end Verif
