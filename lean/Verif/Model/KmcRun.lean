import Verif.Model.Kmc
import Verif.Model.Checks
/-
The life of a lattice model: reading the input files, the process cache, running, scripts,
`scaks/models/kmc_model.py`, `scaks/solvers/kmc_solver.py` and `scaks/parsers/kmc_parser.py`.
-/
namespace Verif
open Dict

variable {K : Type} {C : Type}

/-- A value of a control parameter.
Models: the arguments of `KMCControlParameters`, `scaks/solvers/kmc_solver.py` 234-263. -/
inductive CVal where
  | none
  | int (n : Int)
  | float (q : Rat)
  | inf
  | str (s : Str)
  | bool (b : Bool)
  | ints (l : List Int)
  | strs (l : List Str)
  deriving DecidableEq

/-- The settings of a lattice model that concern a run.
Models: the class attributes of `scaks/models/kmc_model.py` 29-111. -/
structure KmcSettings where
  exprs : List Str
  lattice : LatticeOwner
  analysis : List Str
  timeLimit : CVal
  nstep : CVal
  dumpInterval : CVal
  seed : CVal
  timeSeed : Bool
  generator : CVal
  analysisInterval : CVal
  startTime : CVal
  extraTraj : CVal
  redistribution : Bool
  redistInterval : CVal
  fastSpecies : CVal
  nsplits : CVal
  distributor : CVal

/-- `get_control_parameters`: the keyword arguments.
Models: `scaks/solvers/kmc_solver.py` 228-267. -/
def controlParams (s : KmcSettings) : Dict Str CVal :=
  let base : Dict Str CVal := [(str! "time_limit", s.timeLimit), (str! "number_of_steps", s.nstep), (str! "dump_interval", s.dumpInterval),
    (str! "seed", s.seed), (str! "rng_type", s.generator), (str! "analysis_interval", s.analysisInterval),
    (str! "start_time", s.startTime), (str! "extra_traj", s.extraTraj), (str! "do_redistribution", .bool s.redistribution)]
  if s.redistribution then
    ([(str! "redistribution_interval", s.redistInterval), (str! "fast_species", s.fastSpecies), (str! "nsplits", s.nsplits),
      (str! "distributor_type", s.distributor), (str! "empty_element", .str s.lattice.emptyType)] : Dict Str CVal).foldl
      (fun d p => Dict.set d p.1 p.2) base
  else base

/-- What is handed to KMCLibX by one run.
Models: `scaks/solvers/kmc_solver.py` 74-106. -/
structure KmcCall (K C : Type) where
  procs : List (KProc K C)
  config : List Str
  sites : List Str
  control : Dict Str CVal
  trajectory : Str
  trajectoryType : Str
  analysis : Option (List Str)

/-- A lattice model with its solver. The label list of the model is the same object as the one of the solver, so the
state only tells whether it is known. `rates` stands for the energies that were read: they give the rates.
Models: the attributes of `scaks/models/kmc_model.py` 134-202 and `scaks/solvers/kmc_solver.py` 27-45, 391-406. -/
structure KmcState (K C : Type) where
  rates : Str → Py (K × K)
  dicts : Option (List (ProcDict C))
  config : Option (List Str)
  sites : Option (List Str)
  cache : Option (List (KProc K C))
  mapping : List Str
  procs : Option (List (KProc K C))
  mappingKnown : Bool
  scripts : List Str
  calls : List (KmcCall K C)

/-- A fresh model: nothing is read, rates can not be computed.
Models: `scaks/solvers/kmc_solver.py` 27-45. -/
def KmcState.init : KmcState K C := ⟨fun _ => .error .AttributeError, none, none, none, none, [], none, false, [], []⟩

/-- `parse_processes`.
Models: `scaks/parsers/kmc_parser.py` 208-229. -/
def parseProcesses (file : DataFile (List (ProcDict C))) : Py (List (ProcDict C)) :=
  match file with
  | .missing => .error .IOError
  | .without => .error .KeyError
  | .data l => .ok l

/-- `KMCParser.parse_data`. The energies are given by the rates they lead to; if reading them fails nothing changes here
(see `parseAbsolute` and `parseRelative` for the energies themselves).
Models: `scaks/parsers/kmc_parser.py` 41-69. -/
def KmcState.parse (s : KmcSettings) (st : KmcState K C) (energies : Py (Str → Py (K × K))) (pf : DataFile (List (ProcDict C)))
    (cf sf : DataFile (List Str)) : Py Unit × KmcState K C :=
  match energies with
  | .error e => (.error e, st)
  | .ok r =>
    let st := { st with rates := r }
    match (do
      let p ← parseProcesses pf
      let c ← parseConfiguration s.lattice cf
      let m ← constructSitesmap s.lattice sf
      pure (p, c, m)) with
    | .error e => (.error e, st)
    | .ok (p, c, m) => (.ok (), { st with dicts := some p, config := some c, sites := some m })

/-- What the solver needs for the processes.
Models: `scaks/solvers/kmc_solver.py` 119-156. -/
def KmcState.owner (s : KmcSettings) (st : KmcState K C) : KmcOwner K := ⟨s.exprs, s.lattice.elementTypes, st.rates⟩

/-- `KMCSolver.get_processes`.
Models: `scaks/solvers/kmc_solver.py` 110-117. -/
def KmcState.getProcesses (s : KmcSettings) (st : KmcState K C) : Py (List (KProc K C)) × KmcState K C :=
  match st.dicts with
  | none => (.error .AttributeError, st)
  | some ds =>
    let r := Verif.getProcesses (st.owner s) ds st.mapping
    (r.1, { st with mapping := r.2 })

/-- The property `KMCSolver.processes`.
Models: `scaks/solvers/kmc_solver.py` 390-399. -/
def KmcState.processes (s : KmcSettings) (st : KmcState K C) : Py (List (KProc K C)) × KmcState K C :=
  match st.cache with
  | some ps => (.ok ps, st)
  | none =>
    match st.getProcesses s with
    | (.error e, st') => (.error e, st')
    | (.ok ps, st') => (.ok ps, { st' with cache := some ps })

/-- The analysis objects: frequencies and turnover frequencies need the processes of the model.
Models: `scaks/solvers/kmc_solver.py` 62-71, `scaks/solvers/kmc_plugins/frequency_analysis.py` 46-49,
`scaks/solvers/kmc_plugins/tof_analysis.py` 46-48, `scaks/solvers/kmc_plugins/coverages_analysis.py` 30-64,
`scaks/solvers/kmc_plugins/event_analysis.py` 32-64. -/
def makeAnalysis (st : KmcState K C) (name : Str) : Py Str :=
  if name = str! "FrequencyAnalysis" ∨ name = str! "TOFAnalysis" then
    match st.procs with
    | none => .error .AttributeError
    | some _ => .ok name
  else if name = str! "CoveragesAnalysis" ∨ name = str! "EventAnalysis" then .ok name
  else .error .AttributeError

/-- The analysis handed to KMCLibX.
Models: `scaks/solvers/kmc_solver.py` 62-71. -/
def analysisObjects (s : KmcSettings) (st : KmcState K C) : Py (Option (List Str)) :=
  if s.analysis = [] then .ok none else (s.analysis.mapM (makeAnalysis st)).map some

/-- `KMCSolver.run`; `engine` is what KMCLibX answers, `master` whether this is the first process.
Models: `scaks/solvers/kmc_solver.py` 47-107. -/
def KmcState.solverRun (s : KmcSettings) (master scripting : Bool) (trajType : Str) (engine : Py Unit) (st : KmcState K C) :
    Py Unit × KmcState K C :=
  match analysisObjects s st with
  | .error e => (.error e, st)
  | .ok an =>
    match st.processes s with
    | (.error e, st) => (.error e, st)
    | (.ok ps, st) =>
      match st.config, st.sites with
      | some c, some m =>
        let st := if scripting && master then { st with scripts := st.scripts ++ [str! "auto_kmc_model.py"] } else st
        (engine, { st with calls := st.calls ++ [⟨ps, c, m, controlParams s, str! "auto_" ++ trajType ++ str! "_trajectory.py", trajType, an⟩] })
      | _, _ => (.error .AttributeError, st)

/-- `KMCModel.run`.
Models: `scaks/models/kmc_model.py` 139-156. -/
def KmcState.run (s : KmcSettings) (master scripting : Bool) (trajType : Str) (engine : Py Unit) (st : KmcState K C) :
    Py Unit × KmcState K C :=
  match st.processes s with
  | (.error e, st) => (.error e, st)
  | (.ok ps, st) => KmcState.solverRun s master scripting trajType engine { st with procs := some ps, mappingKnown := true }

/-- `KMCModel.processes` and `KMCModel.process_mapping`.
Models: `scaks/models/kmc_model.py` 173-202. -/
def KmcState.view (st : KmcState K C) : Py (List (KProc K C)) × Py (List Str) :=
  (match st.procs with | some p => .ok p | none => .error .AttributeError, if st.mappingKnown then .ok st.mapping else .error .AttributeError)

/-- Operations of a user.
Models: the public methods of `scaks/models/kmc_model.py` and `scaks/solvers/kmc_solver.py`. -/
inductive KmcOp (K C : Type) where
  | parse (energies : Py (Str → Py (K × K))) (pf : DataFile (List (ProcDict C))) (cf sf : DataFile (List Str))
  | processes
  | getProcesses
  | solverRun (master scripting : Bool) (trajType : Str) (engine : Py Unit)
  | run (master scripting : Bool) (trajType : Str) (engine : Py Unit)

/-- One operation; whether it raised is kept apart.
Models: the public methods of `scaks/models/kmc_model.py` and `scaks/solvers/kmc_solver.py`. -/
def KmcState.step (s : KmcSettings) (st : KmcState K C) : KmcOp K C → Option PyErr × KmcState K C
  | .parse e pf cf sf => let r := st.parse s e pf cf sf; (errOf r.1, r.2)
  | .processes => let r := st.processes s; (errOf r.1, r.2)
  | .getProcesses => let r := st.getProcesses s; (errOf r.1, r.2)
  | .solverRun ma sc t e => let r := st.solverRun s ma sc t e; (errOf r.1, r.2)
  | .run ma sc t e => let r := st.run s ma sc t e; (errOf r.1, r.2)
where
  errOf {α : Type} : Py α → Option PyErr
    | .ok _ => none
    | .error e => some e

/-- A whole history.
Models: any sequence of calls by a user. -/
def KmcState.steps (s : KmcSettings) (st : KmcState K C) (ops : List (KmcOp K C)) : KmcState K C :=
  ops.foldl (fun st op => (st.step s op).2) st

end Verif
