import Verif.Model.Util
import Verif.Model.Tables
import Verif.Model.Coords
/-
Pictures of lattice trajectories and of processes: `scripts/kmc_plot/plot_scatters_small-100.py`, `plot_scatters_small-111.py`,
`plot_scatters_large-100.py`, `plot_scatters_large-111.py`, `plot_processes-100.py`, `plot_processes-111.py`. A picture is the list of what is given to the plotting library.
Numbers are exact. The files are read by Python itself. Axes, ticks and the movie are not modelled.
-/
namespace Verif
open Dict

/-- One point of a picture.
Models: `scripts/kmc_plot/plot_scatters_small-100.py` 77-81, `scripts/kmc_plot/plot_processes-100.py` 39-47. -/
structure Dot (K : Type) where
  x : K
  y : K
  color : Str
  edge : Str
  marker : Str
  deriving DecidableEq

/-- `d[k]` of a dictionary of texts.
Models: `scripts/kmc_plot/plot_scatters_small-100.py` 78-79. -/
def lookupText (d : Dict Str Str) (k : Str) : Py Str :=
  match get? d k with
  | some v => .ok v
  | none => .error .KeyError

/-- `x, y = coord[: 2]`.
Models: `scripts/kmc_plot/plot_scatters_small-100.py` 77. -/
def firstTwo {K : Type} : List K → Py (K × K)
  | x :: y :: _ => .ok (x, y)
  | _ => .error .ValueError

/-- The size of the points; a given size is looked up by a local name that has no value yet.
Models: `scripts/kmc_plot/plot_scatters_small-100.py` 66-69. -/
def areaSmall100 {K : Type} [Field K] (given : Option K) (n : Nat) : Py K :=
  match given with
  | none => if n = 0 then .error .ZeroDivisionError else .ok (60 ^ 2 / n * 20)
  | some _ => .error .UnboundLocalError

/-- The size of the points in the other scripts.
Models: `scripts/kmc_plot/plot_scatters_small-111.py` 66-69, `scripts/kmc_plot/plot_scatters_large-100.py` 63-66. -/
def areaOther {K : Type} [Field K] (given : Option K) (n : Nat) : Py K :=
  match given with
  | none => if n = 0 then .error .ZeroDivisionError else .ok (60 ^ 2 / n * 20)
  | some a => .ok a

/-- One point: its marker by `marker`, which has the number of the site and its type.
Models: `scripts/kmc_plot/plot_scatters_small-100.py` 76-81, `scripts/kmc_plot/plot_scatters_small-111.py` 77-83. -/
def scatterDot {K : Type} (colors : Dict Str Str) (marker : Nat → Str → Py Str) (p : (Str × List K) × Nat) : Py (Dot K) := do
  let (x, y) ← firstTwo p.1.2
  let color ← lookupText colors p.1.1
  let m ← marker p.2 p.1.1
  pure ⟨x, y, color, color, m⟩

/-- The picture of a configuration, with the size of its points.
Models: `scripts/kmc_plot/plot_scatters_small-100.py` 25-104, `scripts/kmc_plot/plot_scatters_small-111.py` 25-105. -/
def plotScatters {K : Type} [Field K] (area : Option K → Nat → Py K) (marker : Nat → Str → Py Str) (given : Option K) (possible : List Str) (colors : Dict Str Str)
    (types : List Str) (coords : List (List K)) : Py (K × List (Dot K)) := do
  if ¬ possible.all (fun t => (get? colors t).isSome) then .error .ValueError
  else
    let a ← area given types.length
    let dots ← (types.zip coords).zipIdx.mapM (scatterDot colors marker)
    pure (a, dots)

/-- The marker of a type.
Models: `scripts/kmc_plot/plot_scatters_small-100.py` 79. -/
def markerByType (markers : Dict Str Str) (_ : Nat) (t : Str) : Py Str := lookupText markers t

/-- The marker of a site by its number among the six of a cell.
Models: `scripts/kmc_plot/plot_scatters_small-111.py` 76, 81. -/
def markerBySite (i : Nat) (_ : Str) : Py Str :=
  pyIndex [str! "o", str! "v", str! "v", str! "v", str! "s", str! "s"] (i % 6)

/-- The points of every type in turn; a type that is not expected raises.
Models: `scripts/kmc_plot/plot_scatters_large-100.py` 69-74. -/
def classifyDots {K : Type} : Dict Str (List (K × K)) → List (Str × List K) → Py (Dict Str (List (K × K)))
  | d, [] => .ok d
  | d, (t, c) :: l =>
    match get? d t with
    | none => .error .KeyError
    | some pts => do
      let p ← firstTwo c
      classifyDots (Dict.set d t (pts ++ [p])) l

/-- The picture of a large lattice: for every type that occurs, its colour and its points. The marker and the edges are the same for all. Points with one coordinate are left out of
the model's range, as they raise at another line.
Models: `scripts/kmc_plot/plot_scatters_large-100.py` 25-107. -/
def plotLarge {K : Type} (possible : List Str) (colors : Dict Str Str) (types : List Str) (coords : List (List K)) : Py (List (Str × List (K × K))) := do
  if ¬ possible.all (fun t => (get? colors t).isSome) then .error .ValueError
  else
    let d ← classifyDots (possible.foldl (fun d t => if (get? d t).isSome then d else Dict.set d t []) []) (types.zip coords)
    (d.filter (fun p => p.2 ≠ [])).mapM fun p => do
      let color ← lookupText colors p.1
      pure (color, p.2)

/-- The time in the title: `'%es'` below a hundredth of a second, else hours, minutes and seconds to two digits.
Models: `scripts/kmc_plot/plot_scatters_small-100.py` 96-100. -/
def timeText (t : ℚ) : Str :=
  if t < 1 / 100 then sciText 6 t ++ str! "s"
  else
    let (h, m, s) := convertTime t
    let c := (roundHalfEven (s * 100)).toNat
    Nat.toDigits 10 h.toNat ++ str! "h " ++ Nat.toDigits 10 m.toNat ++ str! "min " ++ Nat.toDigits 10 (c / 100) ++ '.' :: fixedDigits 2 c ++ str! "sec"

/-- The name of the file of a frame.
Models: `scripts/kmc_plot/plot_scatters_small-100.py` 160-164. -/
def frameName {P : Type} (path : Str) (fs : Dict Str P) (step : Nat) : Str :=
  let name := path ++ Nat.toDigits 10 step ++ str! ".png"
  if (get? fs name).isSome then path ++ Nat.toDigits 10 step ++ str! "-redis.png" else name

/-- The loop over the frames: the files and the names of the images in order. A picture that cannot be made ends the loop.
Models: `scripts/kmc_plot/plot_scatters_small-100.py` 155-175. -/
def saveFrames {P : Type} (path : Str) : Dict Str P → List Str → List (Py P × Nat) → Dict Str P × Py (List Str)
  | fs, images, [] => (fs, .ok images)
  | fs, images, (.ok pic, step) :: l =>
    let name := frameName path fs step
    saveFrames path (Dict.set fs name pic) (images ++ [name]) l
  | fs, _, (.error e, _) :: _ => (fs, .error e)

/-- A row times the cell vectors, which are vectors of three numbers.
Models: `scripts/kmc_plot/plot_processes-100.py` 22-26, `scripts/kmc_plot/plot_scatters_small-111.py` 165-170. -/
def toCartesian {K : Type} [Field K] (cell : List (List K)) (c : List K) : Py (List K) :=
  if c.length ≠ cell.length then .error .ValueError
  else .ok ((List.zipWith (fun x v => v.map (x * ·)) c cell).foldl (List.zipWith (· + ·)) (List.replicate 3 0))

/-- `plot_elements`: white points get a grey edge.
Models: `scripts/kmc_plot/plot_processes-100.py` 13-57. -/
def plotElements {K : Type} [Field K] (cell : List (List K)) (coords : List (List K)) (elems : List Str) (colors markers : Dict Str Str) : Py (List (Dot K)) :=
  if coords = [] then .error .ValueError
  else do
    let carts ← coords.mapM (toCartesian cell)
    (elems.zip carts).mapM fun p => do
      let color ← lookupText colors p.1
      let marker ← lookupText markers p.1
      let (x, y) ← firstTwo p.2
      pure ⟨x, y, color, if color = str! "#FFFFFF" ∨ color = str! "#FFF" then str! "#5E5E5E" else color, marker⟩

/-- A process as it is read.
Models: `scripts/kmc_plot/plot_processes-100.py` 69-73. -/
structure DrawnProcess (K : Type) where
  reaction : Str
  groups : List (List (List K))
  before : List Str
  after : List Str
  basis : List Nat

/-- `plot_process`: the files with their titles and points. The first group and the first basis site are taken.
Models: `scripts/kmc_plot/plot_processes-100.py` 60-92. -/
def plotProcess {K : Type} [Field K] (basisCoords cell : List (List K)) (colors markers : Dict Str Str) (filename : Str) (p : DrawnProcess K) :
    Py (List (Str × Str × List (Dot K))) := do
  let coords ← pyIndex p.groups 0
  let basis ← pyIndex p.basis 0
  let v ← pyIndex basisCoords basis
  if coords.length ≠ p.before.length then .error .ValueError
  else
    let moved ← moveCoords coords v
    let b ← plotElements cell moved p.before colors markers
    if coords.length ≠ p.after.length then .error .ValueError
    else
      let a ← plotElements cell moved p.after colors markers
      pure [(filename ++ str! "_0.png", p.reaction ++ str! "(before)", b), (filename ++ str! "_1.png", p.reaction ++ str! "(after)", a)]

/-- The loop over the processes; files of processes before one that fails stay, which is not shown here.
Models: `scripts/kmc_plot/plot_processes-100.py` 121-134. -/
def plotProcesses {K : Type} [Field K] (basisCoords cell : List (List K)) (colors markers : Dict Str Str) (path : Str) (ps : List (DrawnProcess K)) :
    Py (List (Str × Str × List (Dot K))) := do
  let l ← ps.zipIdx.mapM fun p => plotProcess basisCoords cell colors markers (path ++ str! "process_" ++ Nat.toDigits 10 p.2) p.1
  pure l.flatten

end Verif
