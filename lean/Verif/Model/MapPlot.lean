import Verif.Py.Basic
import Mathlib.Algebra.Order.Field.Basic
import Mathlib.Data.List.Sort
/-
Figures of maps over two pressures and of series over one: `scripts/kmc_plot/map_plot/plot_tofs_contour.py`, `plot_CO_cvgs_contour.py`, `plot_O_cvgs_contour.py`, `plot_phase_diagram.py`,
the scripts of the same names in `scripts/mkm_plot/map_plot`, `scripts/kmc_plot/batch_plot/plot_cvgs.py`, `plot_tofs.py`, `plot_cvgs_tof.py` and `scripts/mkm_plot/plot_TOFs.py`,
`plot_cvgs.py`, `plot_cvgs_tof.py`, and `scripts/kmc_plot/plot_coverages.py`. A figure is what is given to the plotting library; colours, labels of axes and legends are left out. Numbers are exact.
-/
namespace Verif

variable {K : Type} [Field K] [LinearOrder K]

/-! ## Maps -/

/-- `np.linspace(a, b, n)`.
Models: `scripts/kmc_plot/map_plot/plot_phase_diagram.py` 28-29. -/
def linspace (a b : K) (n : Nat) : List K :=
  if n = 1 then [a] else (List.range n).map fun i : Nat => a + (i : K) * ((b - a) / ((n : K) - 1))

/-- Nodes in the order of their places.
Models: the sorting in `interp2d`, called in `scripts/kmc_plot/map_plot/plot_phase_diagram.py` 23-24. -/
def sortNodes {B : Type} (l : List (K × B)) : List (K × B) := l.insertionSort fun a b => a.1 ≤ b.1

/-- A linear spline through nodes in order; beyond the first and the last node it is constant.
Models: `interp2d` with `kind="linear"`, called in `scripts/kmc_plot/map_plot/plot_phase_diagram.py` 23-24. -/
def interp1 : List (K × K) → K → Py K
  | [], _ => .error .ValueError
  | [n], _ => .ok n.2
  | n0 :: n1 :: l, x =>
    if x ≤ n0.1 then .ok n0.2
    else if x ≤ n1.1 then .ok (n0.2 + (x - n0.1) / (n1.1 - n0.1) * (n1.2 - n0.2))
    else interp1 (n1 :: l) x

/-- A map ready to be drawn: rows with their pressure, in order, of nodes in order.
Models: the object made by `interp2d`, `scripts/kmc_plot/map_plot/plot_phase_diagram.py` 23-24. -/
abbrev MapFit (K : Type) := List (K × List (K × K))

/-- `interp2d(xs, ys, z, kind="linear")`: a row for every `ys`, a number in each row for every `xs`, at least two of both and none twice; other input is taken to raise, the kind of the
error is not checked.
Models: `scripts/kmc_plot/map_plot/plot_tofs_contour.py` 14-15, `scripts/kmc_plot/map_plot/plot_phase_diagram.py` 22-24. -/
def fitMap (xs ys : List K) (z : List (List K)) : Py (MapFit K) :=
  if z.length ≠ ys.length ∨ ¬ z.all (fun r => r.length = xs.length) then .error .ValueError
  else if ¬ xs.Nodup ∨ ¬ ys.Nodup ∨ xs.length < 2 ∨ ys.length < 2 then .error .ValueError
  else .ok (sortNodes (ys.zip (z.map fun r => sortNodes (xs.zip r))))

/-- The value at a place: along the rows first, then between the rows.
Models: `scripts/kmc_plot/map_plot/plot_tofs_contour.py` 21. -/
def MapFit.at (m : MapFit K) (x y : K) : Py K := do
  let col ← m.mapM fun r => do pure (r.1, ← interp1 r.2 x)
  interp1 col y

/-- What a contour plot is given: a row for every place of `ynew`.
Models: `scripts/kmc_plot/map_plot/plot_tofs_contour.py` 19-26. -/
def drawMap (xs ys : List K) (z : List (List K)) (xnew ynew : List K) : Py (List (List K)) := do
  let m ← fitMap xs ys z
  ynew.mapM fun y => xnew.mapM fun x => m.at x y

/-- The places of the contour plots of lattice runs.
Models: `scripts/kmc_plot/map_plot/plot_tofs_contour.py` 19-20, `scripts/kmc_plot/map_plot/plot_CO_cvgs_contour.py` 19-20, `scripts/kmc_plot/map_plot/plot_O_cvgs_contour.py` 19-20. -/
def contourPlaces : List K × List K := (linspace (1 / 100000) (1 / 10000) 100, linspace (1 / 100000) 5 100)

/-- The contour plot of a map of lattice runs.
Models: `scripts/kmc_plot/map_plot/plot_tofs_contour.py` 8-26. -/
def contourPlot (xs ys : List K) (z : List (List K)) : Py (List (List K)) := drawMap xs ys z contourPlaces.1 contourPlaces.2

/-- The places of the contour plots of steady states.
Models: `scripts/mkm_plot/map_plot/plot_tof_contour.py` 20-21, `scripts/mkm_plot/map_plot/plot_CO_cvgs_contour.py` 21-22, `scripts/mkm_plot/map_plot/plot_O_cvgs_contour.py` 21-22. -/
def steadyPlaces : List K × List K := (linspace (1 / 100000) (1 / 2) 100, linspace (1 / 100000) (1 / 2) 100)

/-- The contour plot of a map of steady states.
Models: `scripts/mkm_plot/map_plot/plot_tof_contour.py` 8-27. -/
def steadyContour (xs ys : List K) (z : List (List K)) : Py (List (List K)) := drawMap xs ys z steadyPlaces.1 steadyPlaces.2

/-- The difference of two tables of one shape; numbers or rows that can be repeated to fit are not modelled.
Models: `scripts/kmc_plot/map_plot/plot_phase_diagram.py` 19. -/
def subTables (a b : List (List K)) : Py (List (List K)) :=
  if a.map List.length = b.map List.length then .ok (List.zipWith (List.zipWith (· - ·)) a b) else .error .ValueError

/-- The phase diagram: oxygen minus carbon monoxide, and the frequencies, over the pressures of the file of frequencies.
Models: `scripts/kmc_plot/map_plot/plot_phase_diagram.py` 8-39. -/
def phaseDiagram (pCOs pO2s : List K) (tofs cvgsCO cvgsO : List (List K)) : Py (List (List K) × List (List K)) := do
  let cvgs ← subTables cvgsO cvgsCO
  let xnew := linspace (1 / 100000) (1 / 2) 200
  let ynew := linspace (1 / 100000) (1 / 2) 100
  let c ← drawMap pCOs pO2s cvgs xnew ynew
  let t ← drawMap pCOs pO2s tofs xnew ynew
  pure (c, t)

/-! ## Series -/

/-- The limits of an axis: a tenth of the range on both sides. There must be a number.
Models: `scripts/kmc_plot/batch_plot/plot_cvgs.py` 15-16, `scripts/mkm_plot/plot_TOFs.py` 17-20. -/
def axisLimits (l : List K) : Py (K × K) :=
  match l.min?, l.max? with
  | some a, some b => .ok (a - (b - a) * (1 / 10), b + (b - a) * (1 / 10))
  | _, _ => .error .ValueError

/-- A curve: lists of the same length.
Models: `scripts/kmc_plot/batch_plot/plot_cvgs.py` 22-37. -/
def drawCurve (xs ys : List K) : Py (List (K × K)) := if xs.length = ys.length then .ok (xs.zip ys) else .error .ValueError

/-- A figure of coverages and frequencies: the limits along the pressures, those along the frequencies, and the curves of carbon monoxide, oxygen and frequencies, and the point of the
legend.
Models: `scripts/kmc_plot/batch_plot/plot_cvgs_tof.py` 7-64. -/
structure SeriesFigure (K : Type) where
  xlim : K × K
  tofLim : K × K
  co : List (K × K)
  o : List (K × K)
  tof : List (K × K)
  legend : K × K
  deriving DecidableEq

/-- The figure of a series of lattice runs. The pressures are those of the file of frequencies.
Models: `scripts/kmc_plot/batch_plot/plot_cvgs_tof.py` 7-66. -/
def seriesFigure (pressures tofs co o : List K) : Py (SeriesFigure K) := do
  let xlim ← axisLimits pressures
  let c ← drawCurve pressures co
  let ox ← drawCurve pressures o
  let tofLim ← axisLimits tofs
  let t ← drawCurve pressures tofs
  pure ⟨xlim, tofLim, c, ox, t, (0, 0)⟩

/-- `zip(*rows)`: columns up to the shortest row.
Models: `scripts/mkm_plot/plot_cvgs_tof.py` 33. -/
def columnsOf (rows : List (List K)) : List (List K) :=
  match (rows.map List.length).min? with
  | none => []
  | some n => (List.range n).map fun j => rows.filterMap (·[j]?)

/-- The curves of `plot_cvgs_tof.py` for steady states: the first adsorbate for carbon monoxide and the second for oxygen; names of adsorbates are read but not used.
Models: `scripts/mkm_plot/plot_cvgs_tof.py` 33-36. -/
def steadyCurves (_names : List Str) (rows : List (List K)) : Py (List K × List K) :=
  match columnsOf rows with
  | a :: b :: _ => .ok (a, b)
  | _ => .error .IndexError

/-- The curves of `plot_cvgs.py` for steady states: the first two adsorbates for carbon monoxide and the third for oxygen.
Models: `scripts/mkm_plot/plot_cvgs.py` 30-33 (Python 2, where `zip` gives a list). -/
def steadyCurvesThree (_names : List Str) (rows : List (List K)) : Py (List K × List K) :=
  match columnsOf rows with
  | a :: b :: c :: _ => .ok (List.zipWith (· + ·) a b, c)
  | _ => .error .IndexError

/-! ## Coverages of a lattice run -/

/-- The label of a type of element.
Models: `scripts/kmc_plot/plot_coverages.py` 19, 31. -/
def coverageLabel (sp : Str) : Str :=
  if sp = str! "Vac" then str! "$\\bf{*}$" else str! "$\\bf{" ++ sp ++ str! "^{*}}$"

/-- The curves of one panel.
Models: `scripts/kmc_plot/plot_coverages.py` 18-20, 30-32. -/
def coveragePanel (types : List Str) (xs : List K) (cvgs : List (List K)) : Py (List (Str × List (K × K))) :=
  (types.zip cvgs).mapM fun x => do pure (coverageLabel x.1, ← drawCurve xs x.2)

/-- Both panels: over the steps and over the times.
Models: `scripts/kmc_plot/plot_coverages.py` 13-36. -/
def coveragePlot (types : List Str) (steps times : List K) (cvgs : List (List K)) :
    Py (List (Str × List (K × K)) × List (Str × List (K × K))) := do
  let a ← coveragePanel types steps cvgs
  let b ← coveragePanel types times cvgs
  pure (a, b)

end Verif
