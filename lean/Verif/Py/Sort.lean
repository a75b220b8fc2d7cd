import Verif.Py.Basic
/-
Python's `sorted(list(set(l)))` on strings.
-/
namespace Verif

/-- Python `a < b` on strings: lexicographic by code point.
Used by: `scaks/parsers/parser_base.py` 105-109. -/
def strLt : Str → Str → Bool
  | [], [] => false
  | [], _ :: _ => true
  | _ :: _, [] => false
  | a :: as, b :: bs => if a = b then strLt as bs else a.toNat < b.toNat

/-- Insert into a sorted duplicate-free list, for `sorted(set(..))`:
`scaks/parsers/parser_base.py` 105-109. -/
def insertUniq (x : Str) : List Str → List Str
  | [] => [x]
  | y :: ys => if x = y then y :: ys else if strLt x y then x :: y :: ys else y :: insertUniq x ys

/-- `sorted(list(set(l)))`. The iteration order of the set does not matter because of the sort.
Models: `scaks/parsers/parser_base.py` 105-109. -/
def sortedSet (l : List Str) : List Str := l.foldr insertUniq []

end Verif
