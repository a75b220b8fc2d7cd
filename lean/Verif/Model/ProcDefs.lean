import Verif.Model.Coords
import Verif.Model.Util
/-
Definitions of processes from groups of coordinates,
`examples/KMC/CO-Oxidation-Pt-100/10x10/superposition/NN-1/scripts/get_process_definitions.py`; the script in `NN-2` is the same but for an import.
The package is imported there under its former name. Numbers are exact. The `str` of a dictionary is a parameter.
-/
namespace Verif

/-- The dictionary of a process; the group of coordinates has one entry and the basis sites are `[0]`.
Models: `examples/KMC/CO-Oxidation-Pt-100/10x10/superposition/NN-1/scripts/get_process_definitions.py` 28-32. -/
structure SiteProcess (K : Type) where
  reaction : Str
  coords : List (List K)
  before : List Str
  after : List Str
  deriving DecidableEq

section
variable {K : Type} [Field K] [LinearOrder K]

/-- `reduce(add, coord_groups)` after the first group.
Models: `examples/KMC/CO-Oxidation-Pt-100/10x10/superposition/NN-1/scripts/get_process_definitions.py` 26. -/
def reduceAdd : CStore K → Group → List Group → CStore K × Py Group
  | s, g, [] => (s, .ok g)
  | s, g, h :: l =>
    match addG s g h with
    | (s', .ok m) => reduceAdd s' m l
    | (s', .error e) => (s', .error e)

/-- `generate_process_dict`. `reduce` of no groups raises.
Models: `examples/KMC/CO-Oxidation-Pt-100/10x10/superposition/NN-1/scripts/get_process_definitions.py` 13-34. -/
def generateProcess (s : CStore K) (origin : Group) (oriCoord coord : List K) (rxn : Str) (groups : List Group) : CStore K × Py (SiteProcess K) :=
  let offset := List.zipWith (· - ·) coord oriCoord
  match groups with
  | [] => (s, .error .TypeError)
  | g :: l =>
    match reduceAdd s g l with
    | (s1, .error e) => (s1, .error e)
    | (s1, .ok base) =>
      match moveG s1 origin (some offset) with
      | (s2, .error e) => (s2, .error e)
      | (s2, .ok moved) =>
        match addG s2 base moved with
        | (s3, .error e) => (s3, .error e)
        | (s3, .ok m) =>
          match s3.coords m, s3.elems m with
          | .ok cs, .ok es => (s3, .ok ⟨rxn, cs, es, List.replicate es.length (str! "V")⟩)
          | .error e, _ => (s3, .error e)
          | _, .error e => (s3, .error e)

/-- The inner loop over places and kinds of origin; a kind is not negative here.
Models: `examples/KMC/CO-Oxidation-Pt-100/10x10/superposition/NN-1/scripts/get_process_definitions.py` 100-108. -/
def processesOfGroup (origins : List Group) (oriCoords : List (List K)) (rxn : Str) (groups : List Group) :
    CStore K → List (List K × Nat) → CStore K × Py (List (SiteProcess K))
  | s, [] => (s, .ok [])
  | s, (coord, idx) :: l =>
    match pyIndex origins idx, pyIndex oriCoords idx with
    | .ok origin, .ok ori =>
      match generateProcess s origin ori coord rxn groups with
      | (s', .error e) => (s', .error e)
      | (s', .ok d) =>
        match processesOfGroup origins oriCoords rxn groups s' l with
        | (s'', .error e) => (s'', .error e)
        | (s'', .ok ds) => (s'', .ok (d :: ds))
    | .error e, _ => (s, .error e)
    | _, .error e => (s, .error e)

/-- The outer loop.
Models: `examples/KMC/CO-Oxidation-Pt-100/10x10/superposition/NN-1/scripts/get_process_definitions.py` 98-108. -/
def allProcesses (origins : List Group) (oriCoords : List (List K)) (rxn : Str) (places : List (List K × Nat)) :
    CStore K → List (List Group) → CStore K × Py (List (SiteProcess K))
  | s, [] => (s, .ok [])
  | s, groups :: l =>
    match processesOfGroup origins oriCoords rxn groups s places with
    | (s', .error e) => (s', .error e)
    | (s', .ok ds) =>
      match allProcesses origins oriCoords rxn places s' l with
      | (s'', .error e) => (s'', .error e)
      | (s'', .ok es) => (s'', .ok (ds ++ es))

end

/-- `inputfile.split(".")[0] + "_out.py"`; the list of parts is never empty.
Models: `examples/KMC/CO-Oxidation-Pt-100/10x10/superposition/NN-1/scripts/get_process_definitions.py` 111. -/
def outFileName (inputfile : Str) : Py Str :=
  match splitOn '.' inputfile with
  | [] => .error .IndexError
  | x :: _ => .ok (x ++ str! "_out.py")

/-- `tofile`.
Models: `examples/KMC/CO-Oxidation-Pt-100/10x10/superposition/NN-1/scripts/get_process_definitions.py` 37-43. -/
def processFile {α : Type} (show_ : α → Str) (ds : List α) : Str :=
  ds.foldl (fun acc d => acc ++ (str! "\n" ++ show_ d ++ str! ",\n")) (str! "processes = [\n") ++ str! "\n]\n"

end Verif
