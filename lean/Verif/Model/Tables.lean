import Verif.Model.MeanField
import Mathlib.Data.Int.Log
import Mathlib.Algebra.Order.Round
import Mathlib.Data.Rat.Floor
/-
Tables of results in the log: `scaks/solvers/mean_field_solver.py` 240-268, 486-510, 558-577 and
`scaks/solvers/steady_state_solver.py` 972-994, 1149-1171. Numbers are exact; the conversion of a
result to a machine number before it is written, infinities and NaN are not modelled. The tables
`__log_single_XTRC` and `__log_XTRC` (997-1049) are never written by the code and left out.
-/
namespace Verif

/-- `'{:<w}'.format(s)`: a longer text is not cut.
Models: the format texts of `scaks/solvers/mean_field_solver.py` 254-265, 490-504, 562-571. -/
def ljust (w : Nat) (s : Str) : Str := s ++ List.replicate (w - s.length) ' '

/-- `str.zfill(w)` of a text of digits.
Models: `scaks/solvers/mean_field_solver.py` 503, 570, `scaks/solvers/steady_state_solver.py` 986, 1163. -/
def zfill (w : Nat) (s : Str) : Str := List.replicate (w - s.length) '0' ++ s

/-- Nearest integer, ties to even.
Models: the rounding of Python's format type `e`. -/
def roundHalfEven (x : ℚ) : Int :=
  let r := x - ⌊x⌋
  if r < 1 / 2 then ⌊x⌋ else if 1 / 2 < r then ⌊x⌋ + 1 else if ⌊x⌋ % 2 = 0 then ⌊x⌋ else ⌊x⌋ + 1

/-- Digits and exponent of `'{:.de}'.format(x)`: `d + 1` digits, rounded; a carry goes into the exponent.
Models: Python's format type `e`. -/
def sciParts (d : Nat) (x : ℚ) : Nat × Int :=
  if x = 0 then (0, 0)
  else
    let e := Int.log 10 |x|
    let m := (roundHalfEven (|x| * (10 : ℚ) ^ ((d : Int) - e))).toNat
    if m = 10 ^ (d + 1) then (10 ^ d, e + 1) else (m, e)

/-- The last `k` decimal digits of a number.
Models: Python's format type `e`. -/
def fixedDigits : Nat → Nat → Str
  | 0, _ => []
  | k + 1, m => fixedDigits k (m / 10) ++ [Nat.digitChar (m % 10)]

/-- `'{:.de}'.format(x)` for `d > 0`: sign, one digit, point, `d` digits, exponent with sign and at least two digits.
Models: `scaks/solvers/mean_field_solver.py` 255, 504, 571, `scaks/solvers/steady_state_solver.py` 987, 1142, 1164. -/
def sciText (d : Nat) (x : ℚ) : Str :=
  let (m, e) := sciParts d x
  (if x < 0 then ['-'] else []) ++ fixedDigits 1 (m / 10 ^ d) ++ '.' :: fixedDigits d m ++
    'e' :: (if e < 0 then '-' else '+') :: zfill 2 (Nat.toDigits 10 e.natAbs)

/-- One row of a table with index.
Models: `scaks/solvers/mean_field_solver.py` 503-504, 570-571, `scaks/solvers/steady_state_solver.py` 986-987, 1163-1164. -/
def indexRow (w : Nat) (p : (Str × ℚ) × Nat) : Str :=
  ' ' :: ljust 10 (zfill 2 (Nat.toDigits 10 p.2)) ++ ljust w p.1.1 ++ ljust 30 (sciText 16 p.1.2) ++ ['\n']

/-- A table with index, names in a column of width `w`, values; `zip` stops at the shorter list.
Models: `scaks/solvers/mean_field_solver.py` 490-510, 562-577, `scaks/solvers/steady_state_solver.py` 977-993, 1154-1170. -/
def indexTable (title second third : Str) (w dashes : Nat) (names : List Str) (xs : List ℚ) : Str :=
  title ++ '\n' :: '\n' :: ' ' :: ljust 10 (str! "index") ++ ljust w second ++ ljust 30 third ++ '\n' ::
    List.replicate dashes '-' ++ '\n' :: ((names.zip xs).zipIdx.flatMap (indexRow w)) ++ List.replicate dashes '-' ++ ['\n']

/-- `__log_tof`; the text is returned, and sent to the log if that is allowed.
Models: `scaks/solvers/mean_field_solver.py` 558-577. -/
def logTof (gas : List Str) (tofs : List ℚ) : Str :=
  indexTable (str! "Turnover Frequencies:") (str! "gas name") (str! "TOF") 25 60 gas tofs

/-- `__log_reversibilities`.
Models: `scaks/solvers/mean_field_solver.py` 486-510. -/
def logReversibilities (rxns : List Str) (revs : List ℚ) : Str :=
  indexTable (str! "Reversibilities:") (str! "elementary reaction") (str! "reversibilities") 70 100 rxns revs

/-- `__log_sscvg`.
Models: `scaks/solvers/steady_state_solver.py` 972-994. -/
def logCoverages (ads : List Str) (cvgs : List ℚ) : Str :=
  indexTable (str! "Steady State Coverages:") (str! "intermediate name") (str! "steady state coverage") 25 60 ads cvgs

/-- `__log_single_XRC`.
Models: `scaks/solvers/steady_state_solver.py` 1149-1171. -/
def logXRC (gas : Str) (rxns : List Str) (xrcs : List ℚ) : Str :=
  indexTable (str! "Degree of Rate Control for " ++ gas ++ [':']) (str! "elementary reaction") (str! "XRC") 70 100 rxns xrcs

/-- The length of the longest text. `sorted(...)[-1]` of an empty list raises.
Models: `scaks/solvers/mean_field_solver.py` 251-252. -/
def longest (l : List Str) : Py Nat :=
  match l with
  | [] => .error .IndexError
  | x :: l => .ok (l.foldl (fun n s => max n s.length) x.length)

/-- One row of the table of forward and reverse values.
Models: `scaks/solvers/mean_field_solver.py` 255, 263-264. -/
def rateRow (w : Nat) (p : Str × ℚ × ℚ) : Str :=
  ljust w p.1 ++ ljust 12 (sciText 4 p.2.1) ++ ljust 12 (sciText 4 p.2.2) ++ ['\n']

/-- `__log_rates`. The title ends with the line break, which is counted for the length of the rule.
Models: `scaks/solvers/mean_field_solver.py` 240-268. -/
def logRates (rxns : List Str) (f r : List ℚ) (fname rname : Str) : Py Str := do
  let w ← longest rxns
  let title := ljust (w + 3) (str! "reactions") ++ ljust 12 fname ++ ljust 12 rname ++ ['\n']
  let line := List.replicate title.length '-' ++ ['\n']
  pure ('\n' :: '\n' :: title ++ line ++ (rxns.zip (f.zip r)).flatMap (rateRow (w + 3)) ++ line)

end Verif
