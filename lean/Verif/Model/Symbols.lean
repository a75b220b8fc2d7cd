import Verif.Model.Rxn
import Mathlib.Data.Rat.Defs
/-
`scaks/functions.py` 7-55 (`string2symbols`) and `ParserBase.get_molecular_mass`.
-/
namespace Verif

/-- `m * list`: list repetition.
Models: `scaks/functions.py` 22, 40, 53. -/
def rep {α : Type} (m : Nat) (l : List α) : List α := (List.replicate m l).flatten

/-- The scan for the parenthesis closing one that was just opened: the text inside and the
text after it; `none` if it is never closed. `d` counts further open parentheses.
Models: `scaks/functions.py` 24-32. -/
def splitParen : Nat → Str → Option (Str × Str)
  | _, [] => none
  | d, c :: cs =>
    if c = '(' then (splitParen (d + 1) cs).map fun r => (c :: r.1, r.2)
    else if c = ')' then
      match d with
      | 0 => some ([], cs)
      | d + 1 => (splitParen d cs).map fun r => (c :: r.1, r.2)
    else (splitParen d cs).map fun r => (c :: r.1, r.2)

/-- `string2symbols` with a bound on the recursion depth; `string2symbols` below passes a
bound that is never reached because every recursive call is on a strictly shorter text
(`string2symbols_fuel`). When the parenthesis is never closed the loop variable is left at the
last index, so the last character is cut off and nothing follows.
Models: `scaks/functions.py` 7-55. -/
def symbolsFuel : Nat → Str → Py (List Str)
  | 0, _ => .error .NotImplementedError
  | _ + 1, [] => .ok []
  | n + 1, c :: cs =>
    if isDigit c then
      match symbolsFuel n (cs.dropWhile isDigit) with
      | .ok r => .ok (rep (intOf (c :: cs.takeWhile isDigit)) r)
      | .error e => .error e
    else if c = '(' then
      let ia := (splitParen 0 cs).getD (cs.dropLast, [])
      match symbolsFuel n ia.1 with
      | .ok a =>
        match symbolsFuel n (ia.2.dropWhile isDigit) with
        | .ok b => .ok (rep (intOr1 (ia.2.takeWhile isDigit)) a ++ b)
        | .error e => .error e
      | .error e => .error e
    else if isUpper c then
      let sa : Str × Str :=
        match cs with
        | d :: ds => if isLower d then ([c, d], ds) else ([c], cs)
        | [] => ([c], [])
      match symbolsFuel n (sa.2.dropWhile isDigit) with
      | .ok b => .ok (rep (intOr1 (sa.2.takeWhile isDigit)) [sa.1] ++ b)
      | .error e => .error e
    else .error .ValueError

/-- `string2symbols`.
Models: `scaks/functions.py` 7-55. -/
def string2symbols (s : Str) : Py (List Str) := symbolsFuel (s.length + 1) s

/-- The masses in the element table.
Models: `scaks/database/elements_data.py` 6-14 (decimal values taken as exact rationals). -/
def elementMass (e : Str) : Option ℚ :=
  if e = ['H'] then some (100794 / 100000)
  else if e = ['C'] then some (120107 / 10000)
  else if e = ['N'] then some (140067 / 10000)
  else if e = ['O'] then some (159994 / 10000)
  else if e = ['F'] then some (189984032 / 10000000)
  else if e = ['N', 'e'] then some (201797 / 10000)
  else if e = ['S'] then some (32065 / 1000)
  else if e = ['C', 'l'] then some (35453 / 1000)
  else none

/-- The summing loop of `get_molecular_mass`.
Models: `scaks/parsers/parser_base.py` 265-273. -/
def sumMasses : List Str → ℚ → Py ℚ
  | [], acc => .ok acc
  | e :: es, acc =>
    match elementMass e with
    | none => .error .ElementSearchingError
    | some m => sumMasses es (acc + m)

/-- `get_molecular_mass` with `absolute=False`; the absolute mass is this times the constant
`amu`.
Models: `scaks/parsers/parser_base.py` 247-279. -/
def molecularMass (species : Str) : Py ℚ :=
  match string2symbols species with
  | .error e => .error e
  | .ok l => sumMasses l 0

end Verif
