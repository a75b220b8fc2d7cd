import Verif.Py.Basic
/-
Independent specification of the reaction notation: what a chemist writes, how it is
written down, and what it contains. Nothing here refers to the model of the parser.
-/
namespace Verif.Spec
open Verif

/-- An optional number as text. -/
def numText : Option Nat → Str
  | none => []
  | some n => Nat.toDigits 10 n

/-- One piece of a species name: an element letter with an optional count, or a dash. -/
inductive Tok
  | elem (c : Char) (n : Option Nat)
  | dash
  deriving DecidableEq, Repr

def Tok.text : Tok → Str
  | .elem c n => c :: numText n
  | .dash => ['-']

def Tok.ok : Tok → Bool
  | .elem c _ => isLetter c
  | .dash => true

/-- How many of element `e` the piece contains. -/
def Tok.count (e : Char) : Tok → Nat
  | .elem c n => if c = e then n.getD 1 else 0
  | .dash => 0

def Tok.mentions (e : Char) : Tok → Bool
  | .elem c _ => c == e
  | .dash => false

/-- A species: the empty site or a molecule. -/
inductive Species
  | emptySite
  | mol (ts : List Tok)
  deriving DecidableEq, Repr

def Species.text : Species → Str
  | .emptySite => ['*']
  | .mol ts => ts.flatMap Tok.text

def Species.ok : Species → Bool
  | .emptySite => true
  | .mol ts => ts.all Tok.ok

def Species.count (e : Char) : Species → Nat
  | .emptySite => 0
  | .mol ts => (ts.map (Tok.count e)).sum

def Species.mentions (e : Char) : Species → Bool
  | .emptySite => false
  | .mol ts => ts.any (Tok.mentions e)

/-- A formula with its coefficient, number of sites and site type. -/
structure Formula where
  coef : Option Nat
  sp : Species
  num : Option Nat
  site : Str
  deriving DecidableEq, Repr

namespace Formula

def speciesSite (f : Formula) : Str := f.sp.text ++ '_' :: (numText f.num ++ f.site)
def text (f : Formula) : Str := numText f.coef ++ f.speciesSite
def ok (f : Formula) : Bool :=
  f.sp.ok && (f.site != []) && f.site.all (fun c => isLetter c || c == '*')
/-- The coefficient; an omitted one is 1. -/
def coefficient (f : Formula) : Nat := f.coef.getD 1
def nsite (f : Formula) : Nat := f.num.getD 1
/-- Atoms of `e` in the formula. -/
def count (e : Char) (f : Formula) : Nat := f.coefficient * f.sp.count e
/-- Surface sites of type `s` in the formula; gas and liquid are not surface sites. -/
def siteCount (s : Str) (f : Formula) : Nat :=
  if f.site = s ∧ s ≠ ['g'] ∧ s ≠ ['l'] then f.coefficient * f.nsite else 0
/-- All numbers written in the formula are positive. -/
def pos (f : Formula) : Prop :=
  0 < f.coefficient ∧ 0 < f.nsite ∧
    match f.sp with
    | .emptySite => True
    | .mol ts => ∀ t ∈ ts, ∀ c n, t = .elem c (some n) → 0 < n

end Formula

/-- A state: formulas joined by ` + `. -/
abbrev State := List Formula

def State.text (s : State) : Str := joinWith (str! " + ") (s.map Formula.text)
def State.ok (s : State) : Bool := s != [] && s.all Formula.ok
def State.count (e : Char) (s : State) : Nat := (s.map (Formula.count e)).sum
def State.siteCount (t : Str) (s : State) : Nat := (s.map (Formula.siteCount t)).sum
def State.pos (s : State) : Prop := ∀ f ∈ s, f.pos

/-- A reaction: two or three states. -/
inductive Rxn
  | two (is fs : State)
  | three (is ts fs : State)
  deriving DecidableEq, Repr

def Rxn.states : Rxn → List State
  | .two a b => [a, b]
  | .three a b c => [a, b, c]

def Rxn.ok (r : Rxn) : Bool := r.states.all State.ok
def Rxn.pos (r : Rxn) : Prop := ∀ s ∈ r.states, s.pos

/-- The two arrows of the notation, surrounded by blanks. -/
def arrowText : Bool → Str
  | true => str! " <-> "
  | false => str! " -> "

/-- The ways to write a reaction: states separated by arrows of either kind. -/
def Rxn.text (r1 r2 : Bool) : Rxn → Str
  | .two a b => a.text ++ arrowText r1 ++ b.text
  | .three a b c => a.text ++ arrowText r1 ++ (b.text ++ arrowText r2 ++ c.text)

/-- A reaction is balanced if all its states contain the same atoms and surface sites. -/
def Rxn.balanced (r : Rxn) : Prop :=
  ∀ s ∈ r.states, ∀ t ∈ r.states,
    (∀ e, s.count e = t.count e) ∧ (∀ x, s.siteCount x = t.siteCount x)

end Verif.Spec
