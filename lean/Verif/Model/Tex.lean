import Verif.Model.Rxn
/-
LaTeX texts of formulas, states and equations, `scaks/parsers/rxn_parser.py`.
-/
namespace Verif

/-- `ChemFormula.__sub_texen`.
Models: `scaks/parsers/rxn_parser.py` 422-435. -/
def subTex (s : Str) : Str := (spTokens s).flatMap fun t => if t.2 = [] then [t.1] else t.1 :: str! "_{" ++ t.2 ++ str! "}"

/-- `ChemFormula.texen`.
Models: `scaks/parsers/rxn_parser.py` 437-452. -/
def Formula.tex (f : Formula) : Str :=
  (if f.stoich ≠ 1 then Nat.toDigits 10 f.stoich else []) ++
  (if '-' ∈ f.species then joinWith (str! "-") ((splitOn '-' f.species).map subTex) else subTex f.species) ++
  str! "(" ++ f.site ++ str! ")"

/-- `ChemState.texen`.
Models: `scaks/parsers/rxn_parser.py` 260-270. -/
def stateTex (s : Str) : Py Str := do
  match ← stateFormulas s with
  | [] => .error .IndexError
  | f :: fs => pure (fs.foldl (fun t g => t ++ str! " + " ++ g.tex) f.tex)

/-- `RxnEquation.texen`; for other numbers of states the name `tex_str` is not bound.
Models: `scaks/parsers/rxn_parser.py` 71-86. -/
def eqnTex (s : Str) : Py Str := do
  match ← (← eqnStates s).mapM stateTex with
  | [a, b, c] => pure (a ++ str! " \\leftrightarrow " ++ b ++ str! " \\rightarrow " ++ c)
  | [a, b] => pure (a ++ str! " \\rightarrow " ++ b)
  | _ => .error .UnboundLocalError

/-- `get_latex_strs`; the symbols are given by their LaTeX texts.
Models: `scaks/solvers/mean_field_solver.py` 722-735. -/
def latexStrs (part1 part2 : Str) (symbols : List Str) : List Str :=
  symbols.zipIdx.map fun p => part1 ++ Nat.toDigits 10 (p.2 + 1) ++ part2 ++ str! " = " ++ p.1 ++ str! "\\\\" ++ str! "\n"

end Verif
