import Verif.Py.Basic
/-
Scripts of simulation objects, `scaks/solvers/kmc_solver.py`. Each object of KMCLib writes the
statements that define it under a given name; they are taken as one statement here. The header is a
comment.
-/
namespace Verif
open Dict

/-- Statements of a script: the import of KMCLib, the definition of an object, a list of variables.
Models: `scaks/solvers/kmc_solver.py` 280-281, 377-384. -/
inductive ScriptStmt (O : Type)
  | importAll (package : Str)
  | define (name : Str) (o : O)
  | gather (name : Str) (vars : List Str)
  deriving DecidableEq

/-- `'process_%d' % idx`.
Models: `scaks/solvers/kmc_solver.py` 378, 383. -/
def processVar (idx : Nat) : Str := str! "process_" ++ Nat.toDigits 10 idx

/-- The body of `script_processes`.
Models: `scaks/solvers/kmc_solver.py` 375-388. -/
def processStmts {O : Type} (ps : List O) : List (ScriptStmt O) :=
  ps.zipIdx.map (fun p => .define (processVar p.2) p.1) ++
    [.gather (str! "processes") ((List.range ps.length).map processVar)]

/-- The decorator of all `script_*` methods: what is returned, and the files after it. An empty name
counts as none.
Models: `scaks/solvers/kmc_solver.py` 274-293. -/
def scripted {O : Type} (body : List (ScriptStmt O)) (scriptName : Option Str) (files : Dict Str (List (ScriptStmt O))) :
    List (ScriptStmt O) × Dict Str (List (ScriptStmt O)) :=
  let content := .importAll (str! "KMCLib") :: body
  match scriptName with
  | none => (content, files)
  | some n => (content, if n = [] then files else set files (str! "auto_" ++ n) content)

/-- `script_processes`.
Models: `scaks/solvers/kmc_solver.py` 358-388. -/
def scriptProcesses {O : Type} (ps : List O) (scriptName : Option Str) (files : Dict Str (List (ScriptStmt O))) :
    List (ScriptStmt O) × Dict Str (List (ScriptStmt O)) := scripted (processStmts ps) scriptName files

/-- `script_lattice_model`, `script_configuration` and `script_interactions`: `_script()` of the
object, which defines it under the name the library gives it.
Models: `scaks/solvers/kmc_solver.py` 295-356. -/
def scriptObject {O : Type} (name : Str) (o : O) (scriptName : Option Str) (files : Dict Str (List (ScriptStmt O))) :
    List (ScriptStmt O) × Dict Str (List (ScriptStmt O)) := scripted [.define name o] scriptName files

end Verif
