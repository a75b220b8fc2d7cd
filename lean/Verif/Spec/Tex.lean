import Mathlib.Data.List.Forall2
import Verif.Spec.Rxn
/-
Independent specification of LaTeX texts of reactions: counts as subscripts, the site in parentheses.
-/
namespace Verif.Spec
open Verif

def Tok.tex : Tok → Str
  | .elem c none => [c]
  | .elem c (some n) => c :: str! "_{" ++ Nat.toDigits 10 n ++ str! "}"
  | .dash => str! "-"

def Species.tex : Species → Str
  | .emptySite => str! "*"
  | .mol ts => ts.flatMap Tok.tex

/-- A coefficient of one is not written. -/
def coefTex (n : Nat) : Str := if n = 1 then [] else Nat.toDigits 10 n

def Formula.tex (f : Formula) : Str := coefTex f.coefficient ++ f.sp.tex ++ str! "(" ++ f.site ++ str! ")"

def State.tex (s : State) : Str := joinWith (str! " + ") (s.map Formula.tex)

def Rxn.tex : Rxn → Str
  | .two a b => a.tex ++ str! " \\rightarrow " ++ b.tex
  | .three a b c => a.tex ++ str! " \\leftrightarrow " ++ b.tex ++ str! " \\rightarrow " ++ c.tex

/-- The same coefficient, species and site; the number of sites may differ. -/
def Formula.looksLike (f g : Formula) : Prop := f.coefficient = g.coefficient ∧ f.sp.text = g.sp.text ∧ f.site = g.site

/-- The same up to the numbers of sites. -/
def Rxn.looksLike : Rxn → Rxn → Prop
  | .two a b, .two a' b' => List.Forall₂ Formula.looksLike a a' ∧ List.Forall₂ Formula.looksLike b b'
  | .three a b c, .three a' b' c' =>
      List.Forall₂ Formula.looksLike a a' ∧ List.Forall₂ Formula.looksLike b b' ∧ List.Forall₂ Formula.looksLike c c'
  | _, _ => False

end Verif.Spec
