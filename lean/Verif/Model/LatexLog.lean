import Verif.Model.Symbolic
import Verif.Model.Tex
/-
The equations written to `formulas.tex` by the symbolic functions: `log_latex` in `scaks/solvers/mean_field_solver.py` and `scaks/solvers/steady_state_solver.py`. The LaTeX text of a
symbolic expression, which sympy makes, is a parameter. Errors of the file system are left out.
-/
namespace Verif

variable {K : Type} [Field K]

/-- The file: absent, or its text.
Models: `scaks/__init__.py` 52-55, the file opened with mode `'a'`. -/
abbrev TexFile := Option Str

/-- `write2file`.
Models: `scaks/__init__.py` 51-55. -/
def write2file (file : TexFile) (line : Str) : TexFile :=
  match file with
  | none => some line
  | some t => some (t ++ line)

/-- `log_latex`: the lines and an empty line.
Models: `scaks/solvers/mean_field_solver.py` 107-114. -/
def logLatex (file : TexFile) (lines : List Str) : TexFile := write2file file (lines.flatten ++ str! "\n")

/-- `get_rate_syms(log_latex)`: the result, and the file afterwards.
Models: `scaks/solvers/mean_field_solver.py` 830-855. -/
def getRateSyms (tex : SymExpr K → Str) (s : SymSolver K) (log : Bool) (file : TexFile) : Py (List (SymExpr K) × List (SymExpr K)) × TexFile :=
  match s.o.rxns.mapM (rateSym s) with
  | .error e => (.error e, file)
  | .ok es =>
    let rfs := latexStrs (str! "r_{f") (str! "^{+}}") (es.map fun e => tex e.1)
    let rrs := latexStrs (str! "r_{r") (str! "^{-}}") (es.map fun e => tex e.2)
    (.ok (es.map (·.1), es.map (·.2)), if log then logLatex (logLatex file rfs) rrs else file)

/-- `get_dtheta_dt_syms(log_latex)`. The lines are made but not used: line 595 asks for an attribute `dtheta_dt_latex`, which no code sets.
Models: `scaks/solvers/steady_state_solver.py` 576-597. -/
def getDthetaSyms (s : SymSolver K) (log : Bool) (file : TexFile) : Py (List (SymExpr K)) × TexFile :=
  match s.o.net.ads.mapM (adsorbateDthetaSym s) with
  | .error e => (.error e, file)
  | .ok es => if log then (.error .AttributeError, file) else (.ok es, file)

/-- The lines for the coverage equations.
Models: `scaks/solvers/steady_state_solver.py` 590-591. -/
def dthetaLines (symbols : List Str) : List Str := latexStrs (str! "\\frac{d\\theta_{") (str! "}}{dt}} ") symbols

/-- A call of one of the two functions, with its option.
Models: `scaks/solvers/mean_field_solver.py` 830, `scaks/solvers/steady_state_solver.py` 576. -/
inductive TexCall
  | rates (log : Bool)
  | dtheta (log : Bool)
  deriving DecidableEq

/-- The file after calls one after the other; the caller goes on after errors.
Models: `scaks/solvers/mean_field_solver.py` 830-855, `scaks/solvers/steady_state_solver.py` 576-597. -/
def texRun (tex : SymExpr K → Str) (s : SymSolver K) : List TexCall → TexFile → TexFile
  | [], file => file
  | .rates log :: l, file => texRun tex s l (getRateSyms tex s log file).2
  | .dtheta log :: l, file => texRun tex s l (getDthetaSyms s log file).2

end Verif
