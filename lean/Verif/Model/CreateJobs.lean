import Verif.Model.DataFile
/-
Series of jobs at different pressures, made from a template. Numbers are values, and the text written for a number, a list
or a dictionary stands for its value; texts are written between quotes as they are.
-/
namespace Verif
open Dict

/-- Values of setup files.
Models: the values in `locs`, `scripts/kmc_run/1d-run/create_jobs.py` 28-29. -/
inductive PVal (K : Type)
  | num (a : K)
  | str (s : Str)
  | list (l : List (PVal K))
  | dict (d : List (Str × PVal K))

/-- What is written for a value: a text between quotes, or the text of another value.
Models: `scripts/kmc_run/1d-run/create_jobs.py` 13. -/
inductive Written (K : Type)
  | quoted (s : Str)
  | repr (v : PVal K)

/-- The text for a value.
Models: `scripts/kmc_run/1d-run/create_jobs.py` 13, `scripts/kmc_run/2d-run/create_jobs.py` 13. -/
def writtenOf {K : Type} : PVal K → Written K
  | .str s => .quoted s
  | v => .repr v

/-- `dict2setup`: one line for every variable.
Models: `scripts/kmc_run/1d-run/create_jobs.py` 10-16, `scripts/kmc_run/2d-run/create_jobs.py` 10-16. -/
def dict2setup {K : Type} (d : Dict Str (PVal K)) : List (Str × Written K) :=
  d.map fun x => (x.1, writtenOf x.2)

/-- The value of a written text; a text that cannot be read is a syntax error.
Models: the execution of the file by `scaks/models/kinetic_model.py` 156-158. -/
def readWritten {K : Type} : Written K → Py (PVal K)
  | .quoted s => match readStr s with
    | some t => .ok (.str t)
    | none => .error .SyntaxError
  | .repr v => .ok v

/-- Execution of a setup file.
Models: the execution of the file by `scaks/models/kinetic_model.py` 156-158. -/
def readSetup {K : Type} (file : List (Str × Written K)) : Py (Dict Str (PVal K)) := do
  let vals ← file.mapM fun x => do pure (x.1, ← readWritten x.2)
  pure (vals.foldl (fun env x => env.set x.1 x.2) [])

/-- `locs['species_definitions'][species]['pressure'] = p`.
Models: `scripts/kmc_run/1d-run/create_jobs.py` 41, `scripts/kmc_run/2d-run/create_jobs.py` 46-47. -/
def setPressure {K : Type} (locs : Dict Str (PVal K)) (species : Str) (p : K) : Py (Dict Str (PVal K)) :=
  match get? locs (str! "species_definitions") with
  | none => .error .KeyError
  | some (.dict defs) => match get? defs species with
    | none => .error .KeyError
    | some (.dict d) =>
      .ok (locs.set (str! "species_definitions") (.dict (Dict.set defs species (.dict (Dict.set d (str! "pressure") (.num p))))))
    | some _ => .error .TypeError
  | some _ => .error .TypeError

/-- The setup file of every directory, and the list of jobs. Other files are left out.
Models: the files of `scripts/kmc_run/1d-run/create_jobs.py` 31-50. -/
structure JobFiles (K : Type) where
  dirs : Dict Str (Option (List (Str × Written K)))
  jobDirs : Option (List Str)

/-- A job: the directory it is in, if that has to be made, its own directory, and the pressures.
Models: the loops of `scripts/kmc_run/1d-run/create_jobs.py` 31-34, `scripts/kmc_run/2d-run/create_jobs.py` 32-40. -/
structure Job (K : Type) where
  parent : Option Str
  dir : Str
  pressures : List (Str × K)

/-- What the scripts do to the files, in order; `fail` is an error.
Models: `scripts/kmc_run/1d-run/create_jobs.py` 36-50, `scripts/kmc_run/2d-run/create_jobs.py` 34-55. -/
inductive JobOp (K : Type)
  | parent (d : Str)
  | rmtree (d : Str)
  | mkdir (d : Str)
  | copy (d : Str)
  | write (d : Str) (file : List (Str × Written K))
  | jobDirs (l : List Str)
  | fail (e : PyErr)

/-- The directories without one.
Models: `scripts/kmc_run/1d-run/create_jobs.py` 36-37. -/
def without {V : Type} (dirs : Dict Str V) (d : Str) : Dict Str V := dirs.filter fun x => decide (x.1 ≠ d)

/-- The effect of a step; `none` if it stops the script.
Models: `scripts/kmc_run/1d-run/create_jobs.py` 36-50, `scripts/kmc_run/2d-run/create_jobs.py` 34-55. -/
def JobOp.run {K : Type} (template : Option (List (Str × Written K))) (fs : JobFiles K) : JobOp K → Except PyErr (JobFiles K)
  | .parent d => .ok (match get? fs.dirs d with
    | none => { fs with dirs := fs.dirs.set d none }
    | some _ => fs)
  | .rmtree d => .ok { fs with dirs := without fs.dirs d }
  | .mkdir d => match get? fs.dirs d with
    | none => .ok { fs with dirs := fs.dirs.set d none }
    | some _ => .error .IOError
  | .copy d => .ok { fs with dirs := fs.dirs.set d template }
  | .write d file => .ok { fs with dirs := fs.dirs.set d (some file) }
  | .jobDirs l => .ok { fs with jobDirs := some l }
  | .fail e => .error e

/-- The files after the script, and the error that stopped it.
Models: `scripts/kmc_run/1d-run/create_jobs.py` 26-50. -/
def runOps {K : Type} (template : Option (List (Str × Written K))) : JobFiles K → List (JobOp K) → JobFiles K × Option PyErr
  | fs, [] => (fs, none)
  | fs, op :: ops => match op.run template fs with
    | .ok fs' => runOps template fs' ops
    | .error e => (fs, some e)

/-- `locs` after all pressures of a job.
Models: `scripts/kmc_run/1d-run/create_jobs.py` 41, `scripts/kmc_run/2d-run/create_jobs.py` 46-47. -/
def setPressures {K : Type} : Dict Str (PVal K) → List (Str × K) → Py (Dict Str (PVal K))
  | locs, [] => .ok locs
  | locs, (s, p) :: rest => do setPressures (← setPressure locs s p) rest

/-- The steps of the script. `locs` keeps the pressures of the last job; without a template it is not defined.
Models: `scripts/kmc_run/1d-run/create_jobs.py` 26-50, `scripts/kmc_run/2d-run/create_jobs.py` 25-55. -/
def jobOps {K : Type} (all : List Str) : Option (Dict Str (PVal K)) → List (Job K) → List (JobOp K)
  | _, [] => [.jobDirs all]
  | locs, j :: js =>
    (match j.parent with | none => [] | some d => [.parent d]) ++ [.rmtree j.dir, .mkdir j.dir, .copy j.dir] ++
      match locs with
      | none => [.fail .NameError]
      | some l => match setPressures l j.pressures with
        | .error e => [.fail e]
        | .ok l' => .write j.dir (dict2setup l') :: jobOps all (some l') js

/-- The jobs of one species.
Models: `scripts/kmc_run/1d-run/create_jobs.py` 20-22, 31-34. -/
def jobs1d {K : Type} (text : K → Str) (species : Str) (ps : List K) : List (Job K) :=
  ps.map fun p => ⟨none, text p, [(species, p)]⟩

/-- The jobs of two species; directories of oxygen pressures are made together with their jobs.
Models: `scripts/kmc_run/2d-run/create_jobs.py` 18-20, 31-40, 46-47. -/
def jobs2d {K : Type} (text : K → Str) (pO2s pCOs : List K) : List (Job K) :=
  pO2s.flatMap fun pO2 => pCOs.map fun pCO =>
    ⟨some (str! "pO2-" ++ text pO2), str! "pO2-" ++ text pO2 ++ str! "/pCO-" ++ text pCO, [(str! "CO_g", pCO), (str! "O2_g", pO2)]⟩

/-- The whole script: `template` are the variables of the template's setup file, if it exists.
Models: `scripts/kmc_run/1d-run/create_jobs.py` 24-50, `scripts/kmc_run/2d-run/create_jobs.py` 24-55. -/
def createJobs {K : Type} (template : Option (Dict Str (PVal K))) (templateFile : Option (List (Str × Written K)))
    (jobs : List (Job K)) (fs : JobFiles K) : JobFiles K × Option PyErr :=
  runOps templateFile fs (jobOps (jobs.map Job.dir) template jobs)

end Verif
