/-
The fragment of Python that the models rely on: exceptions as values, text as
character lists, a few string methods, insertion-ordered dictionaries.
-/
namespace Verif

/-- The exception classes raised by the modelled code: Python built-ins and the
classes of `scaks/errors/error.py` 8-75 and `scaks/parsers/rxn_parser.py` 282-284.
Messages are not modelled. -/
inductive PyErr
  | ValueError | TypeError | KeyError | IndexError | AttributeError | NameError
  | ZeroDivisionError | IOError | UnboundLocalError | NotImplementedError
  | ParameterError | SetupError | ChemFormulaError | ElementSearchingError | SyntaxError | OverflowError
  deriving DecidableEq, Repr

/-- A Python computation that returns a value or raises; used for every modelled function that
can raise, e.g. `scaks/parsers/rxn_parser.py` 309-323. -/
abbrev Py (α : Type _) := Except PyErr α

instance {ε α} [DecidableEq ε] [DecidableEq α] : DecidableEq (Except ε α)
  | .ok a, .ok b => if h : a = b then isTrue (h ▸ rfl) else isFalse (fun h' => h (Except.ok.inj h'))
  | .error a, .error b =>
      if h : a = b then isTrue (h ▸ rfl) else isFalse (fun h' => h (Except.error.inj h'))
  | .ok _, .error _ => isFalse (fun h => nomatch h)
  | .error _, .ok _ => isFalse (fun h => nomatch h)

/-- Python text; characters outside ASCII are kept but belong to no character class;
e.g. the argument of `scaks/parsers/rxn_parser.py` 20-24. -/
abbrev Str := List Char

open Lean in
/-- `str! "abc"` is the character list `['a', 'b', 'c']`. -/
macro "str!" s:str : term => do
  let elems := (s.getString.toList.map Syntax.mkCharLit).toArray
  `(([$elems,*] : List Char))

/-- Python `\d` / `str.isdigit` restricted to ASCII.
Used by: `scaks/parsers/rxn_parser.py` 298-299, `scaks/functions.py` 18-20. -/
def isDigit (c : Char) : Bool := '0' ≤ c && c ≤ '9'

/-- `[a-zA-Z]`. Used by: `scaks/parsers/rxn_parser.py` 298-299. -/
def isLetter (c : Char) : Bool := ('a' ≤ c && c ≤ 'z') || ('A' ≤ c && c ≤ 'Z')

/-- Python `\w` restricted to ASCII. Used by: `scaks/parsers/rxn_parser.py` 298. -/
def isWord (c : Char) : Bool := isLetter c || isDigit c || c == '_'

/-- `str.isspace` restricted to ASCII. Used by `strip`: `scaks/parsers/rxn_parser.py` 38, 153. -/
def isSpace (c : Char) : Bool :=
  c == ' ' || (9 ≤ c.toNat && c.toNat ≤ 13) || (28 ≤ c.toNat && c.toNat ≤ 31)

/-- `str.isupper` of one character, restricted to ASCII. Used by: `scaks/functions.py` 42. -/
def isUpper (c : Char) : Bool := 'A' ≤ c && c ≤ 'Z'

/-- `str.islower` of one character, restricted to ASCII. Used by: `scaks/functions.py` 44. -/
def isLower (c : Char) : Bool := 'a' ≤ c && c ≤ 'z'

/-- The value of one decimal digit, for `int`: `scaks/parsers/rxn_parser.py` 319, 323. -/
def digitVal (c : Char) : Nat := c.toNat - '0'.toNat

/-- Python `int(s)` for a string of decimal digits (callers only pass such strings).
Used by: `scaks/parsers/rxn_parser.py` 319, 323, 368, `scaks/functions.py` 22, 37, 50. -/
def intOf (s : Str) : Nat := s.foldl (fun acc c => 10 * acc + digitVal c) 0

/-- `str.strip()`. Used by: `scaks/parsers/rxn_parser.py` 38, 153. -/
def strip (s : Str) : Str := ((s.dropWhile isSpace).reverse.dropWhile isSpace).reverse

/-- `s.split(c)` for a one-character separator. Used by: `scaks/parsers/rxn_parser.py` 153. -/
def splitOn (c : Char) : Str → List Str
  | [] => [[]]
  | x :: xs =>
    if x = c then [] :: splitOn c xs
    else match splitOn c xs with
      | h :: t => (x :: h) :: t
      | [] => [[x]]

/-- `sep.join(parts)`. Used by: `scaks/solvers/mean_field_solver.py` 369. -/
def joinWith (sep : Str) : List Str → Str
  | [] => []
  | [x] => x
  | x :: y :: zs => x ++ sep ++ joinWith sep (y :: zs)

/-! ### Dictionaries -/

/-- A Python dictionary: insertion-ordered association list. The operations below keep
keys distinct. Used for every `dict` of the modelled code, e.g. `scaks/parsers/rxn_parser.py` 171-222. -/
abbrev Dict (κ : Type _) (ν : Type _) := List (κ × ν)

namespace Dict
variable {κ : Type _} {ν : Type _} [DecidableEq κ]

/-- `d.get(k)` and the lookup part of `d[k]`, e.g. `scaks/parsers/parser_base.py` 309. -/
def get? : Dict κ ν → κ → Option ν
  | [], _ => none
  | (a, v) :: d, k => if a = k then some v else get? d k

/-- The keys in insertion order, e.g. `scaks/parsers/parser_base.py` 99. -/
def keys (d : Dict κ ν) : List κ := d.map (·.1)

/-- `d[k] = v`, e.g. `scaks/parsers/rxn_parser.py` 171-179. -/
def set : Dict κ ν → κ → ν → Dict κ ν
  | [], k, v => [(k, v)]
  | (a, w) :: d, k, v => if a = k then (a, v) :: d else (a, w) :: set d k v

/-- `if k not in d: d.setdefault(k, v) else: d[k] += v`.
Models: `scaks/parsers/rxn_parser.py` 191-195, 213-220, 367-374. -/
def bump [Add ν] : Dict κ ν → κ → ν → Dict κ ν
  | [], k, v => [(k, v)]
  | (a, w) :: d, k, v => if a = k then (a, w + v) :: d else (a, w) :: bump d k v

/-- `d1 == d2`: same number of entries and every entry of `d1` is in `d2`.
Used by: `scaks/parsers/rxn_parser.py` 238-258, 400-419. -/
def eqB [DecidableEq ν] (d1 d2 : Dict κ ν) : Bool :=
  d1.length == d2.length && d1.all (fun e => get? d2 e.1 == some e.2)

end Dict
end Verif
