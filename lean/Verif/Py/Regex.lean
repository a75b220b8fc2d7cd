import Verif.Py.Basic
/-
Python's backtracking regular expressions, in continuation-passing style: a matcher
takes the text at the current position and a continuation that says how the rest of the
pattern goes on; it returns the first success in Python's priority order.
-/
namespace Verif.Re
open Verif

variable {β : Type _}

/-- `(X*)` with `X` a character class, greedy: try to take one more character first, give
back on failure of the continuation. The continuation receives the captured text and the
remaining text. Used by: `scaks/parsers/rxn_parser.py` 32-33, 298. -/
def star (p : Char → Bool) : Str → (Str → Str → Option β) → Option β
  | [], k => k [] []
  | c :: cs, k =>
    if p c then
      match star p cs (fun w r => k (c :: w) r) with
      | some x => some x
      | none => k [] (c :: cs)
    else k [] (c :: cs)

/-- `(X+)` with `X` a character class, greedy. Used by: `scaks/parsers/rxn_parser.py` 298. -/
def plus (p : Char → Bool) : Str → (Str → Str → Option β) → Option β
  | [], _ => none
  | c :: cs, k => if p c then star p cs (fun w r => k (c :: w) r) else none

/-- A literal string. Used by: `scaks/parsers/rxn_parser.py` 32-33, 298. -/
def lit : Str → Str → (Str → Option β) → Option β
  | [], s, k => k s
  | _ :: _, [], _ => none
  | a :: as, c :: cs, k => if a = c then lit as cs k else none

/-- Ordered choice. Used by: `scaks/parsers/rxn_parser.py` 32-33. -/
def alt (a b : Option β) : Option β :=
  match a with
  | some x => some x
  | none => b

/-- `regex.search(s)`: the leftmost position at which the matcher succeeds.
Used by: `scaks/parsers/rxn_parser.py` 34, 314. -/
def search (m : Str → Option β) : Str → Option β
  | [] => m []
  | c :: cs =>
    match m (c :: cs) with
    | some x => some x
    | none => search m cs

end Verif.Re
