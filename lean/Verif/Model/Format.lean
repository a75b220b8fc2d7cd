import Verif.Model.Templates
import Verif.Py.Sort
/-
Texts of lists and dictionaries, `scaks/utilities/format_utilities.py` 10-70, and reading them back as Python does.
-/
namespace Verif
open Dict

/-- An element of a list, with the text that `str` gives for it: `tok` a number, `quoted` a string, `nested` a list or
tuple.
Models: `scaks/utilities/format_utilities.py` 31-44. -/
inductive TItem
  | tok (s : Str)
  | quoted (s : Str)
  | nested (s : Str)
  deriving DecidableEq

/-- The loop of `get_list_string` from index `idx` on; `idx % ncols` raises for zero columns.
Models: `scaks/utilities/format_utilities.py` 29-44. -/
def listBody (ncols : Nat) : Nat → List TItem → Py Str
  | _, [] => .ok []
  | idx, .nested s :: l => do
    let rest ← listBody ncols (idx + 1) l
    pure (str! "\n    " ++ s ++ str! "," ++ rest)
  | idx, .tok s :: l => do
    if ncols = 0 then .error .ZeroDivisionError
    let rest ← listBody ncols (idx + 1) l
    pure ((if idx % ncols = 0 then str! "\n    " else []) ++ s ++ str! ", " ++ rest)
  | idx, .quoted s :: l => do
    if ncols = 0 then .error .ZeroDivisionError
    let rest ← listBody ncols (idx + 1) l
    pure ((if idx % ncols = 0 then str! "\n    " else []) ++ '\'' :: s ++ str! "', " ++ rest)

/-- `get_list_string`.
Models: `scaks/utilities/format_utilities.py` 10-48. -/
def listString (name : Str) (items : List TItem) (ncols : Nat) : Py Str := do
  let data ← listBody ncols 0 items
  pure (name ++ str! " = [" ++ data ++ str! "\n]\n\n")

/-- `get_dict_string` for a dictionary with string keys; the values are given by their texts.
Models: `scaks/utilities/format_utilities.py` 50-70. -/
def dictString (name : Str) (d : Dict Str Str) : Py Str := do
  let data ← (sortedSet (keys d)).mapM fun key => do
    let v ← dictGet d key
    pure (str! "    '" ++ key ++ str! "': " ++ v ++ str! ",\n")
  pure (name ++ str! " = {\n" ++ data.flatten ++ str! "}\n\n")

/-! ## Reading a list display -/

/-- Where the reader is: between elements, inside a number, a string, a nested list or tuple, after an element, after the
closing bracket.
Models: the Python tokenizer. -/
inductive LexMode
  | sep
  | inTok (acc : Str)
  | inStr (acc : Str)
  | inNest (depth : Nat) (acc : Str)
  | after
  | closed
  deriving DecidableEq

/-- The reader.
Models: the Python tokenizer. -/
structure Lexer where
  items : List TItem
  mode : LexMode
  deriving DecidableEq

/-- Reading a character. Escapes in strings, and brackets and quotes within nested elements, are not modelled: a string
with a backslash is refused here.
Models: the Python tokenizer and parser on a list display. -/
def lexChar (st : Lexer) (c : Char) : Option Lexer :=
  match st.mode with
  | .sep =>
    if isSpace c then some st
    else if c = '\'' then some ⟨st.items, .inStr []⟩
    else if c = '(' ∨ c = '[' then some ⟨st.items, .inNest 0 [c]⟩
    else if c = ']' then some ⟨st.items, .closed⟩
    else if c = ',' ∨ c = ')' then none
    else some ⟨st.items, .inTok [c]⟩
  | .inTok acc =>
    if isSpace c then some ⟨st.items ++ [.tok acc], .after⟩
    else if c = ',' then some ⟨st.items ++ [.tok acc], .sep⟩
    else if c = ']' then some ⟨st.items ++ [.tok acc], .closed⟩
    else if c = '\'' ∨ c = '(' ∨ c = '[' ∨ c = ')' then none
    else some ⟨st.items, .inTok (acc ++ [c])⟩
  | .inStr acc =>
    if c = '\'' then some ⟨st.items ++ [.quoted acc], .after⟩
    else if c = '\\' ∨ c = '\n' then none
    else some ⟨st.items, .inStr (acc ++ [c])⟩
  | .inNest d acc =>
    if c = '(' ∨ c = '[' then some ⟨st.items, .inNest (d + 1) (acc ++ [c])⟩
    else if c = ')' ∨ c = ']' then
      match d with
      | 0 => some ⟨st.items ++ [.nested (acc ++ [c])], .after⟩
      | d + 1 => some ⟨st.items, .inNest d (acc ++ [c])⟩
    else some ⟨st.items, .inNest d (acc ++ [c])⟩
  | .after =>
    if isSpace c then some st
    else if c = ',' then some ⟨st.items, .sep⟩
    else if c = ']' then some ⟨st.items, .closed⟩
    else none
  | .closed => if isSpace c then some st else none

/-- The elements of a list display, after its opening bracket.
Models: the Python tokenizer and parser on a list display. -/
def readElems (s : Str) : Option (List TItem) :=
  match s.foldlM lexChar ⟨[], .sep⟩ with
  | some ⟨items, .closed⟩ => some items
  | _ => none

/-- An assignment of a list display: the name and the elements.
Models: the Python tokenizer and parser on an assignment. -/
def readListText (s : Str) : Option (Str × List TItem) :=
  match upTo ' ' s with
  | none => none
  | some (name, rest) =>
    if rest.take 3 = str! "= [" then (readElems (rest.drop 3)).map fun l => (name, l) else none

/-- An assignment of a dictionary display as in the files of C77.
Models: the Python tokenizer and parser on an assignment. -/
def readDictText {K : Type} (num : Str → Option K) (s : Str) : Py (Str × Dict Str K) :=
  match splitOn '\n' s with
  | [] => .error .SyntaxError
  | l :: ls =>
    match upTo ' ' l with
    | none => .error .SyntaxError
    | some (name, rest) =>
      if rest = str! "= {" then do
        let d ← readItems num ls []
        pure (name, d)
      else .error .SyntaxError

end Verif
