import Verif.Model.MkmScript
/-
The scripts that run a model in the current directory: `scripts/mkm_run/run.py` and `scripts/kmc_run/run.py`. What they
remove at the start, the setup file they take, what they write to the log; and the clean-up of several processes.
-/
namespace Verif

/-- The files that `out.log auto_*` stands for.
Models: `scripts/mkm_run/run.py` 24. -/
def isOldOutput (n : Str) : Bool := n == str! "out.log" || (str! "auto_").isPrefixOf n

/-- A directory: the names of its files with their lines.
Models: `scripts/mkm_run/run.py` 24-30. -/
abbrev Folder := List (Str × List Str)

/-- `rm -rf out.log auto_*`.
Models: `scripts/mkm_run/run.py` 24. -/
def mkmClean (d : Folder) : Folder := d.filter fun f => !isOldOutput f.1

/-- `rm -rm out.log auto_*`: `m` is not an option of `rm`, which then removes nothing; its status is not looked at.
Models: `scripts/kmc_run/run.py` 15. -/
def kmcClean (d : Folder) : Folder := d

/-- Lines added to a file, which is made if it does not exist: a handler of logs opens its file for appending.
Models: `scaks/models/kinetic_model.py` 202. -/
def appendLines (name : Str) (lines : List Str) : Folder → Folder
  | [] => [(name, lines)]
  | f :: d => if f.1 = name then (name, f.2 ++ lines) :: d else f :: appendLines name lines d

/-- The lines of a file.
Models: `scaks/models/kinetic_model.py` 202. -/
def linesOf (name : Str) (d : Folder) : Option (List Str) := (d.find? fun f => f.1 == name).map (·.2)

/-- The stages of a run: making the model, reading the data, and the rest. Each may raise.
Models: `scripts/mkm_run/run.py` 38-60, `scripts/kmc_run/run.py` 30-38. -/
structure Stages where
  make : Py Unit
  parse : Py Unit
  run : Py Unit

/-- What a script reports: the errors written to the log, whether the time used is written, and what is raised.
Models: `scripts/mkm_run/run.py` 61-72, `scripts/kmc_run/run.py` 39-51. -/
structure Report where
  caught : List PyErr
  time : Bool
  result : Py Unit

/-- The script for micro-kinetic models: every stage is inside `try`.
Models: `scripts/mkm_run/run.py` 37-72. -/
def mkmReport (master : Bool) (s : Stages) : Report :=
  match (do s.make; s.parse; s.run : Py Unit) with
  | .ok () => ⟨[], master, .ok ()⟩
  | .error e => ⟨if master then [e] else [], false, .error e⟩

/-- The script for lattice models: only `run` is inside `try`.
Models: `scripts/kmc_run/run.py` 29-51. -/
def kmcReport (master : Bool) (s : Stages) : Report :=
  match (do s.make; s.parse : Py Unit) with
  | .error e => ⟨[], false, .error e⟩
  | .ok () => match s.run with
    | .ok () => ⟨[], master, .ok ()⟩
    | .error e => ⟨if master then [e] else [], false, .error e⟩

/-! ## Several processes -/

/-- Where a process is: before its clean-up, at the barrier in the making of the logger, or after it.
Models: `scripts/mkm_run/run.py` 24, 39, `scaks/models/kinetic_model.py` 196. -/
inductive CleanPc
  | start
  | waiting
  | running
  deriving DecidableEq

/-- Names of the files, names written by this run, and where the processes are.
Models: `scripts/mkm_run/run.py` 22-60. -/
structure CleanWorld where
  files : List Str
  written : List Str
  pc : Nat → CleanPc

/-- One step of process `r` of `n`, which writes the file `name` if it is running; `none` while it waits for the others at the
barrier. Nothing is written before the barrier, as the model does not exist yet.
Models: `scripts/mkm_run/run.py` 22-60, `scaks/models/kinetic_model.py` 193-198. -/
def cleanStep (n : Nat) (w : CleanWorld) (r : Nat) (name : Str) : Option CleanWorld :=
  match w.pc r with
  | .start => some { w with files := w.files.filter (!isOldOutput ·), pc := fun q => if q = r then .waiting else w.pc q }
  | .waiting =>
    if (List.range n).all fun q => w.pc q != .start then some { w with pc := fun q => if q = r then .running else w.pc q } else none
  | .running => some { w with files := w.files ++ [name], written := w.written ++ [name] }

/-- Steps of processes below `n` in some order; a process that waits is passed over.
Models: `scripts/mkm_run/run.py` 22-60. -/
def cleanRun (n : Nat) (w : CleanWorld) : List (Nat × Str) → CleanWorld
  | [] => w
  | (r, name) :: l => if r < n then cleanRun n ((cleanStep n w r name).getD w) l else cleanRun n w l

/-- Before the scripts start.
Models: `scripts/mkm_run/run.py` 22. -/
def cleanInit (files : List Str) : CleanWorld := ⟨files, [], fun _ => .start⟩

end Verif
