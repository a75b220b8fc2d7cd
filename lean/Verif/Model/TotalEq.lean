import Verif.Model.MeanField
import Verif.Model.Util
/-
The total reaction equation of a model, `scaks/parsers/parser_base.py` 185-245. Floats are exact numbers.
-/
namespace Verif
variable {K : Type} [Field K] [LinearOrder K] [FloorRing K]

/-- `min` of a list; `ValueError` for an empty one.
Models: `scaks/parsers/parser_base.py` 203, 210. -/
def minOf : List K → Py K
  | [] => .error .ValueError
  | x :: l => .ok (l.foldl min x)

/-- The multiplicities of the reactions from the basis of the null space that `numpy.linalg.svd` gives: any lists are
allowed here. `round1` is rounding to one decimal place.
Models: `scaks/parsers/parser_base.py` 197-204. -/
def totalWeights (round1 : K → K) (basis : List (List K)) : Py (List K) :=
  match basis with
  | [] => .error .ValueError
  | v :: _ =>
    if ¬ basis.any fun v => v.any fun y => y ≠ 0 then .error .ValueError
    else do
      let x := v.map fun y => |y|
      let m ← minOf x
      if m = 0 then .error .ZeroDivisionError
      pure (x.map fun y => round1 (y / m))

/-- The coefficients of gases and liquids; a reactant is positive.
Models: `scaks/parsers/parser_base.py` 205-211. -/
def totalCoefs (n : Network) (w : List K) : Py (List Int) := do
  let m ← n.stoichMatrices
  if w.length ≠ m.2.length then .error .ValueError
  let t := rowTimes n.reaproCols.length w (m.2.map fun row => row.map fun (x : Int) => (x : K))
  let small ← minOf (t.map fun y => |y|)
  if small = 0 then .error .ZeroDivisionError
  pure (t.map fun y => pyInt (y / small))

/-- Coefficient and name; a coefficient of one is not written.
Models: `scaks/parsers/parser_base.py` 220-232. -/
def totalTerm (k : Int) (name : Str) : Str := (if k.natAbs = 1 then [] else Nat.toDigits 10 k.natAbs) ++ name

/-- One name with its side (`true` for a product) and text.
Models: `scaks/parsers/parser_base.py` 214-235. -/
def totalSide (cols : List Str) (c : List Int) (x : Str) : Py (Bool × Str) :=
  match c[cols.idxOf x]? with
  | some k => .ok (decide (k < 0), totalTerm k x)
  | none => .error .IndexError

/-- `get_total_rxn_equation`.
Models: `scaks/parsers/parser_base.py` 185-245. -/
def totalEquation (round1 : K → K) (basis : List (List K)) (n : Network) : Py Str := do
  let w ← totalWeights round1 basis
  let c ← totalCoefs n w
  let terms ← n.reaproCols.mapM (totalSide n.reaproCols c)
  let reactants := (terms.filter fun p => p.1 = false).map (·.2)
  let products := (terms.filter fun p => p.1 = true).map (·.2)
  let s := joinWith (str! " + ") reactants ++ str! " -> " ++ joinWith (str! " + ") products
  let _ ← checkConservation s
  pure s

end Verif
