import Verif.Spec.Rxn
/-
Independent specification of chemical formulas with parentheses.
-/
namespace Verif.Spec
open Verif

/-- A chemical formula: a sequence of symbols and parenthesised groups, each with an optional
count; a group may start with a multiplier for its content. -/
inductive Chem
  | nil
  | sym (u : Char) (l : Option Char) (n : Option Nat) (rest : Chem)
  | group (k : Option Nat) (inner : Chem) (n : Option Nat) (rest : Chem)
  deriving DecidableEq, Repr

namespace Chem

def text : Chem → Str
  | nil => []
  | sym u l n rest => u :: (l.toList ++ (numText n ++ rest.text))
  | group k inner n rest => '(' :: (numText k ++ (inner.text ++ ')' :: (numText n ++ rest.text)))

/-- Symbols are an upper case letter and an optional lower case letter. -/
def ok : Chem → Bool
  | nil => true
  | sym u l _ rest => isUpper u && l.all isLower && rest.ok
  | group _ inner _ rest => inner.ok && rest.ok

/-- The multiplicity of a symbol. -/
def count (x : Str) : Chem → Nat
  | nil => 0
  | sym u l n rest => (if u :: l.toList = x then n.getD 1 else 0) + rest.count x
  | group k inner n rest => n.getD 1 * (k.getD 1 * inner.count x) + rest.count x

/-- Concatenation of formulas. -/
def append : Chem → Chem → Chem
  | nil, b => b
  | sym u l n rest, b => sym u l n (rest.append b)
  | group k i n rest, b => group k i n (rest.append b)

end Chem
end Verif.Spec
