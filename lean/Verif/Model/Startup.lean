import Verif.Py.Basic
/-
Construction of a micro-kinetic model on several processes, and its first archive: directories, log files and
barriers. `scaks/models/kinetic_model.py`, `scaks/models/micro_kinetic_model.py`, `scaks/mpicommons.py`.
-/
namespace Verif

/-- Where a process is. `decided b`: it has looked for the log directory, with answer `b`.
Models: `scaks/models/kinetic_model.py` 194-199, 202; `scaks/models/micro_kinetic_model.py` 128-132, 328-334;
`scaks/__init__.py` 33-49. -/
inductive Pc
  | start
  | barrier1
  | look
  | decided (found : Bool)
  | openLog
  | lookData
  | barrier2
  | makeData
  | save
  | done
  | failed (e : PyErr)
  deriving DecidableEq

/-- The directories, and for each process where it is and how many barriers it has entered. Barriers have no names.
Models: `scaks/mpicommons.py` 32-35. -/
structure Procs where
  log : Bool
  data : Bool
  pc : Nat → Pc
  entered : Nat → Nat

/-- The state before any process has begun.
Models: `scaks/models/kinetic_model.py` 194-199. -/
def Procs.init (log data : Bool) : Procs := ⟨log, data, fun _ => .start, fun _ => 0⟩

/-- Process `r` goes to another place.
Models: `scaks/models/kinetic_model.py` 194-202. -/
def Procs.goto (w : Procs) (r : Nat) (p : Pc) : Procs := { w with pc := fun q => if q = r then p else w.pc q }

/-- Process `r` calls `mpi.barrier()`.
Models: `scaks/mpicommons.py` 32-35. -/
def Procs.enter (w : Procs) (r : Nat) (p : Pc) : Procs :=
  { w with pc := fun q => if q = r then p else w.pc q, entered := fun q => if q = r then w.entered r + 1 else w.entered q }

/-- A process may leave a barrier once all of the `n` processes have entered as many.
Models: `scaks/mpicommons.py` 32-35. -/
def Procs.mayLeave (w : Procs) (n r : Nat) : Bool := (List.range n).all fun q => w.entered r ≤ w.entered q

/-- One step of process `r` of `n`; `none` if it cannot go on: it waits, or has ended. Each look at the file system is
one step. A missing directory, or one that is there already, is an `IOError`.
Models: `scaks/models/kinetic_model.py` 194-202 (log directory and file), `scaks/models/micro_kinetic_model.py` 128-132
(data directory), 328-334 and `scaks/__init__.py` 33-49 (archive). More than one process. -/
def procStep (n : Nat) (w : Procs) (r : Nat) : Option Procs :=
  if n ≤ r then none else
  match w.pc r with
  | .start => some (w.enter r .barrier1)
  | .barrier1 => if w.mayLeave n r then some (w.goto r .look) else none
  | .look => some (w.goto r (.decided w.log))
  | .decided found =>
    if found = false ∧ r = 0 then
      if w.log then some (w.goto r (.failed .IOError)) else some ({ w with log := true }.goto r .openLog)
    else some (w.goto r .openLog)
  | .openLog => if w.log then some (w.goto r .lookData) else some (w.goto r (.failed .IOError))
  | .lookData => if w.data then some (w.goto r .save) else some (w.enter r .barrier2)
  | .barrier2 => if w.mayLeave n r then some (w.goto r .makeData) else none
  | .makeData =>
    if r = 0 then
      if w.data then some (w.goto r (.failed .IOError)) else some ({ w with data := true }.goto r .save)
    else some (w.goto r .save)
  | .save => if w.data then some (w.goto r .done) else some (w.goto r (.failed .IOError))
  | .done => none
  | .failed _ => none

/-- A schedule: which process makes a step. A process that cannot go on is skipped.
Models: any interleaving of the processes. -/
def schedule (n : Nat) (w : Procs) : List Nat → Procs
  | [] => w
  | r :: rs => schedule n ((procStep n w r).getD w) rs

end Verif
