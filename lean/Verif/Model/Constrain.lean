import Verif.Model.MeanField
import Mathlib.Algebra.Order.Field.Basic
/-
Constraining coverages and the residual: `scaks/solvers/steady_state_solver.py` 34-105, 684-705.
Numbers are elements of an ordered field. Logging and the comparison that decides whether to log
(lines 84-102) are left out: they do not change the result.
-/
namespace Verif
open Dict

variable {K : Type} [Field K] [LinearOrder K]

/-- The loop forcing every coverage into `[0, 1]`.
Models: `scaks/solvers/steady_state_solver.py` 47-52. -/
def clampUnit : Dict Str K → List Str → Py (Dict Str K)
  | d, [] => .ok d
  | d, a :: as => do
    let c ← dictGet d a
    let d := if 1 < c then Dict.set d a 1 else d
    let c ← dictGet d a
    let d := if c < 0 then Dict.set d a 0 else d
    clampUnit d as

/-- The inner loop forcing the adsorbates of one site below the total of the site.
Models: `scaks/solvers/steady_state_solver.py` 57-59. -/
def capSite (total : K) : Dict Str K → List Str → Py (Dict Str K)
  | d, [] => .ok d
  | d, a :: as => do
    let c ← dictGet d a
    capSite total (if total < c then Dict.set d a total else d) as

/-- The loop over the sites.
Models: `scaks/solvers/steady_state_solver.py` 54-59. -/
def capSites (totals : Dict Str K) (cls : Dict Str (List Str)) : Dict Str K → List Str → Py (Dict Str K)
  | d, [] => .ok d
  | d, s :: ss => do
    let total ← dictGet totals s
    let sps ← dictGet cls s
    let d ← capSite total d sps
    capSites totals cls d ss

/-- `constrain_in_total`: the values scaled down when their sum exceeds the maximum.
Models: `scaks/solvers/steady_state_solver.py` 61-67. -/
def constrainInTotal (sub : Dict Str K) (maxCvg : K) : Py (Dict Str K) :=
  let total := (sub.map (·.2)).sum
  if maxCvg < total then
    sub.mapM fun e => if total = 0 then .error .ZeroDivisionError else .ok (e.1, e.2 / total * maxCvg)
  else .ok sub

/-- The coverages of the adsorbates of one site.
Models: `scaks/solvers/steady_state_solver.py` 72-77. -/
def subCoverages (d : Dict Str K) : Dict Str K → List Str → Py (Dict Str K)
  | sub, [] => .ok sub
  | sub, a :: as => do
    let c ← dictGet d a
    subCoverages d (setDefault sub a c) as

/-- The loop limiting the sum of the coverages on each site.
Models: `scaks/solvers/steady_state_solver.py` 69-80. -/
def limitSites (totals : Dict Str K) (cls : Dict Str (List Str)) : Dict Str K → List Str → Py (Dict Str K)
  | d, [] => .ok d
  | d, s :: ss => do
    let maxCvg ← dictGet totals s
    let sps ← dictGet cls s
    let sub ← subCoverages d [] sps
    let sub ← constrainInTotal sub maxCvg
    limitSites totals cls (sub.foldl (fun d e => Dict.set d e.1 e.2) d) ss

/-- `__constrain_coverages`.
Models: `scaks/solvers/steady_state_solver.py` 34-82, 104. -/
def constrainCoverages (o : MFOwner K) (cvgs : List K) : Py (List K) := do
  let cls ← classifyAds o.net
  let d ← cvgTuple2Dict o cvgs
  let d ← clampUnit d o.net.ads
  let d ← capSites o.totals cls d o.net.sites
  let d ← limitSites o.totals cls d o.net.sites
  cvgDict2Tuple o d

/-- `max` of a list; the empty list is an error.
Used by: `scaks/solvers/steady_state_solver.py` 703. -/
def pyMax : List K → Py K
  | [] => .error .ValueError
  | x :: xs => .ok (xs.foldl (fun m y => if m < y then y else m) x)

/-- `get_residual`.
Models: `scaks/solvers/steady_state_solver.py` 684-705. -/
def getResidual (o : MFOwner K) (k : List K × List K) (cvgs : List K) : Py K := do
  let ds ← steadyStateFunction o k cvgs
  pyMax (ds.map fun d => |d|)

end Verif
