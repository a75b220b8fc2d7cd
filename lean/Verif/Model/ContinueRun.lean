import Verif.Py.Basic
/-
Continuing a lattice run in a new directory: the start time in the setup file. Times are texts of numbers.
-/
namespace Verif
open Dict

/-- `f.readlines()`: the lines with their line ends.
Models: `scripts/kmc_run/change_start_time.py` 10-11. -/
def readlines : Str → List Str
  | [] => []
  | c :: s =>
    if c = '\n' then [c] :: readlines s
    else match readlines s with
      | [] => [[c]]
      | l :: ls => (c :: l) :: ls

/-- `line.startswith("start_time")`.
Models: `scripts/kmc_run/change_start_time.py` 15. -/
def startsStartTime (line : Str) : Bool := (str! "start_time").isPrefixOf line

/-- The text of the setup file after the loop; the new line has no line end.
Models: `scripts/kmc_run/change_start_time.py` 13-23. -/
def replaceStart (t : Str) (content : Str) : Str :=
  let lines := readlines content
  let new := lines.map fun l => if startsStartTime l then str! "start_time = " ++ t else l
  let new := if lines.any startsStartTime then new else new ++ [str! "start_time = 0.0\n"]
  new.flatten

/-- The whole script; `times` is the variable of the old trajectory, if the file has it. The file is written last.
Models: `scripts/kmc_run/change_start_time.py` 5-23. -/
def changeStartTime (times : Option (List Str)) (content : Str) : Py Str :=
  match times with
  | none => .error .KeyError
  | some ts => match ts.getLast? with
    | none => .error .IndexError
    | some t => .ok (replaceStart t content)

/-- The configuration of the new run: `types = t[-1]`.
Models: `scripts/kmc_run/kmc_continue.sh` 17. -/
def continueTypes (types : List (List Str)) : Py (List Str) :=
  match types.getLast? with
  | none => .error .IndexError
  | some t => .ok t

/-- Name of a variable.
Models: the names in setup files. -/
def isIdent : Str → Bool
  | [] => false
  | c :: s => (isLetter c || c == '_') && s.all isWord

/-- Execution of a line of a setup file: nothing, or the assignment of the value of a text to a name. Simplified: only
assignments in one line, without further equal signs and without `#` in texts; everything else is an error.
Models: the execution of the file by `scaks/models/kinetic_model.py` 156-158. -/
def execLine (l : Str) : Py (Option (Str × Str)) :=
  let body := l.takeWhile (· ≠ '#')
  if strip body = [] then .ok none
  else match body.takeWhile (· ≠ '='), body.dropWhile (· ≠ '=') with
    | name, _ :: v =>
      if (name.head?.map isSpace) ≠ some true ∧ isIdent (strip name) = true ∧ strip v ≠ [] ∧ '=' ∉ v then .ok (some (strip name, strip v))
      else .error .SyntaxError
    | _, [] => .error .SyntaxError

/-- Execution of lines in order.
Models: the execution of the file by `scaks/models/kinetic_model.py` 156-158. -/
def execLines : Dict Str Str → List Str → Py (Dict Str Str)
  | env, [] => .ok env
  | env, l :: ls => do
    match ← execLine l with
    | none => execLines env ls
    | some (n, v) => execLines (env.set n v) ls

/-- The variables of a setup file.
Models: the execution of the file by `scaks/models/kinetic_model.py` 156-158. -/
def execSetup (content : Str) : Py (Dict Str Str) := execLines [] (readlines content)

end Verif
