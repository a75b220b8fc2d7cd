import Verif.Py.Basic
import Verif.Model.Rates
import Mathlib.Algebra.Order.Field.Basic
/-
Images of energy profiles, `scaks/plotters/energy_profile_plotter.py`. The drawing itself is done by
the library catplot and is not modelled: an image is the points and the equation it is given.
-/
namespace Verif
open Dict

/-- What is drawn on one image.
Models: `scaks/plotters/energy_profile_plotter.py` 63-64. -/
structure Profile (K : Type) where
  points : List K
  equation : Str
  deriving DecidableEq

/-- The points of a profile; `1e-5` is taken as the exact decimal number.
Models: `scaks/plotters/energy_profile_plotter.py` 62. -/
def profilePoints {K : Type} [Field K] [LinearOrder K] (Ga dG : K) : List K :=
  if |Ga| < 1 / 100000 then [0, dG] else [0, Ga, dG]

/-- The name of an image after the directory: `'{}_{}.png'.format(idx, rxn)`.
Models: `scaks/plotters/energy_profile_plotter.py` 66. -/
def imageName (idx : Nat) (rxn : Str) : Str := Nat.toDigits 10 idx ++ '_' :: rxn ++ str! ".png"

/-- The directory `energy_profile`: whether it exists, and its images by name.
Models: `scaks/plotters/energy_profile_plotter.py` 56-57, 66-67. -/
structure ProfileDir (K : Type) where
  made : Bool
  images : Dict Str (Profile K)

/-- `ElementaryLine(energies, rxn_equation=rxn, **kwargs)`: a keyword given twice raises; all other
keywords are taken to be accepted by the library.
Models: `scaks/plotters/energy_profile_plotter.py` 64. -/
def elementaryLine {K : Type} (points : List K) (rxn : Str) (kwargs : List Str) : Py (Profile K) :=
  if str! "energies" ∈ kwargs ∨ str! "rxn_equation" ∈ kwargs then .error .TypeError else .ok ⟨points, rxn⟩

/-- The loop over the reactions. A reaction with a slash in its text names a directory that does not
exist.
Models: `scaks/plotters/energy_profile_plotter.py` 59-68. -/
def plotLoop {K : Type} [Field K] [LinearOrder K] (kwargs : List Str) :
    Nat → List (Str × K × K) → ProfileDir K → Py Unit × ProfileDir K
  | _, [], d => (.ok (), d)
  | idx, (rxn, Ga, dG) :: l, d =>
    match elementaryLine (profilePoints Ga dG) rxn kwargs with
    | .error e => (.error e, d)
    | .ok p =>
      if '/' ∈ rxn then (.error .IOError, d)
      else plotLoop kwargs (idx + 1) l { d with images := set d.images (imageName idx rxn) p }

/-- `plot_all` of a model with these reactions and relative energies.
Models: `scaks/plotters/energy_profile_plotter.py` 23-68. -/
def plotAll {K : Type} [Field K] [LinearOrder K] (rxns : List Str) (rel : RelDict K) (kwargs : List Str) (d : ProfileDir K) :
    Py Unit × ProfileDir K :=
  match rel.gaf, rel.dg with
  | some a, some g => plotLoop kwargs 0 (rxns.zip (a.zip g)) { d with made := true }
  | _, _ => (.error .KeyError, { d with made := true })

end Verif
