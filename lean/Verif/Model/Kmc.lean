import Verif.Py.Basic
import Mathlib.Algebra.Field.Defs
import Mathlib.Order.Defs.LinearOrder
/-
Lattice kinetic Monte Carlo: the processes handed to KMCLibX and the on-the-fly analysis plugins,
`scaks/solvers/kmc_solver.py` and `scaks/solvers/kmc_plugins`. KMCLibX itself is not modelled: a run
is any list of steps it may report.
-/
namespace Verif
open Dict

variable {K : Type} {C : Type}

/-! ## Processes -/

/-- A process definition after its check; `mixed` tells whether one of the element lists is a list
and the other a tuple.
Models: the dictionaries of `scaks/solvers/kmc_solver.py` 119-170. -/
structure ProcDict (C : Type) where
  reaction : Str
  coords : List C
  before : List Str
  after : List Str
  mixed : Bool
  basis : List Int
  fast : Bool
  redist : Bool

/-- The arguments of `KMCProcess` without the redistribution species.
Models: `scaks/solvers/kmc_solver.py` 179-186, 209-214. -/
structure KProc (K C : Type) where
  coords : C
  before : List Str
  after : List Str
  basis : Int
  rate : K
  fast : Bool
  redist : Bool
  deriving DecidableEq

/-- What the solver knows: expressions, element types and the rates of a reaction.
Models: `scaks/solvers/kmc_solver.py` 128-154. -/
structure KmcOwner (K : Type) where
  exprs : List Str
  elementTypes : List Str
  rates : Str → Py (K × K)

/-- One turn of the loop over basis sites and coordinates: the processes and the labels.
Models: `scaks/solvers/kmc_solver.py` 171-221. -/
def processPair (d : ProcDict C) (rf rr : K) (b : Int) (c : C) : List (KProc K C) × List Str :=
  (⟨c, d.before, d.after, b, rf, d.fast, d.redist⟩ ::
      (if d.redist then [] else [⟨c, d.after, d.before, b, rr, d.fast, false⟩]),
    (if d.fast then [] else [d.reaction ++ str! "(->)"]) ++ (if d.fast then [] else [d.reaction ++ str! "(<-)"]))

/-- The checks of `__get_single_process` and the rates. Adding a list and a tuple raises.
Models: `scaks/solvers/kmc_solver.py` 128-156. -/
def processRates (o : KmcOwner K) (d : ProcDict C) : Py (K × K) :=
  if d.reaction ∉ o.exprs then .error .SetupError
  else if d.mixed then .error .TypeError
  else if (d.before ++ d.after).any (fun e => e != ['*'] && !o.elementTypes.contains e) then .error .SetupError
  else o.rates d.reaction

/-- `__get_single_process`: the result and the label list of the solver afterwards.
Models: `scaks/solvers/kmc_solver.py` 119-226. -/
def getSingleProcess (o : KmcOwner K) (d : ProcDict C) (mapping : List Str) : Py (List (KProc K C)) × List Str :=
  match processRates o d with
  | .error e => (.error e, mapping)
  | .ok (rf, rr) =>
    let pairs := d.basis.flatMap fun b => d.coords.map fun c => processPair d rf rr b c
    (.ok (pairs.flatMap (·.1)), mapping ++ pairs.flatMap (·.2))

/-- `get_processes`: the labels of definitions before a failing one stay.
Models: `scaks/solvers/kmc_solver.py` 110-117. -/
def getProcesses (o : KmcOwner K) : List (ProcDict C) → List Str → Py (List (KProc K C)) × List Str
  | [], mapping => (.ok [], mapping)
  | d :: ds, mapping =>
    match getSingleProcess o d mapping with
    | (.error e, m) => (.error e, m)
    | (.ok ps, m) =>
      match getProcesses o ds m with
      | (.error e, m') => (.error e, m')
      | (.ok qs, m') => (.ok (ps ++ qs), m')

/-! ## Coverages -/

/-- `possible_types.index(element)`, if the element is in the list.
Models: `scaks/solvers/kmc_plugins/kmc_functions.py` 30-33. -/
def indexOf? : List Str → Str → Option Nat
  | [], _ => none
  | t :: ts, s => if t = s then some 0 else (indexOf? ts s).map (· + 1)

/-- The loop of `collect_coverages` over ratios and elements.
Models: `scaks/solvers/kmc_plugins/kmc_functions.py` 28-34. -/
def collectLoop [Add K] (possible : List Str) : List (K × Str) → List K → List K
  | [], ntypes => ntypes
  | (ratio, element) :: l, ntypes =>
    match indexOf? possible element with
    | none => collectLoop possible l ntypes
    | some i => collectLoop possible l (ntypes.modify i (· + ratio))

/-- `collect_coverages` in Python.
Models: `scaks/solvers/kmc_plugins/kmc_functions.py` 4-38. -/
def collectCoverages [Field K] (types possible : List Str) (ratios : List K) : Py (List K) :=
  if ratios.length = 0 then .error .ZeroDivisionError
  else
    let nsite := types.length / ratios.length
    let all := (List.replicate nsite ratios).flatten
    let ntypes := collectLoop possible (all.zip types) (List.replicate possible.length 0)
    if nsite = 0 ∧ ntypes ≠ [] then .error .ZeroDivisionError
    else .ok (ntypes.map (· / (nsite : K)))

/-- The inner loop of the compiled version: every equal type gets the ratio.
Models: `c++/src/kmc_functions.cpp` 30-41. -/
def cppBump [Add K] (element : Str) (ratio : K) (possible : List Str) (ntypes : List K) : List K :=
  List.zipWith (fun t n => if element = t then n + ratio else n) possible ntypes

/-- The loop of the compiled version over all types, from index `i` on.
Models: `c++/src/kmc_functions.cpp` 19-42. -/
def cppLoop [Add K] (possible : List Str) (ratios : List K) : Nat → List Str → List K → Option (List K)
  | _, [], ntypes => some ntypes
  | i, element :: types, ntypes =>
    match ratios[i % ratios.length]? with
    | none => none
    | some ratio => cppLoop possible ratios (i + 1) types (cppBump element ratio possible ntypes)

/-- `collect_coverages` in C++; `none` for an undefined or infinite result.
Models: `c++/src/kmc_functions.cpp` 5-55. -/
def cppCoverages [Field K] (types possible : List Str) (ratios : List K) : Option (List K) :=
  if ratios.length = 0 then none
  else
    let nsite := types.length / ratios.length
    match cppLoop possible ratios 0 types (List.replicate possible.length 0) with
    | none => none
    | some ntypes =>
      if nsite = 0 ∧ ntypes ≠ [] then none else some (ntypes.map (· / (nsite : K)))

/-- One recording of `CoveragesAnalysis`.
Models: `scaks/solvers/kmc_plugins/coverages_analysis.py` 76-93, 112-129. -/
def recordCoverages [Field K] (possible : List Str) (empty : Str) (ratios : List K) (types : List Str) : Py (List K) :=
  match indexOf? possible empty with
  | none => .error .ValueError
  | some i => do
    let cvgs ← collectCoverages types (possible.eraseIdx i) ratios
    pure (cvgs.insertIdx i (1 - cvgs.sum))

/-! ## Event frequencies -/

/-- A step as the plugins see it: number, time and index of the picked process.
Models: the arguments of `registerStep`, `scaks/solvers/kmc_plugins/frequency_analysis.py` 70-72. -/
structure KStep (K : Type) where
  step : Int
  time : K
  picked : Nat

/-- `l[i] += 1`.
Models: `scaks/solvers/kmc_plugins/frequency_analysis.py` 75, 79. -/
def bumpAt (l : List Nat) (i : Nat) : Py (List Nat) :=
  if i < l.length then .ok (l.modify i (· + 1)) else .error .IndexError

/-- The state of `FrequencyAnalysis`.
Models: `scaks/solvers/kmc_plugins/frequency_analysis.py` 46-57. -/
structure FreqState (K : Type) where
  occ : List Nat
  steady : List Nat
  start : K
  stop : K

/-- The initial state.
Models: `scaks/solvers/kmc_plugins/frequency_analysis.py` 46-57. -/
def FreqState.init [Zero K] (nprocess : Nat) : FreqState K :=
  ⟨List.replicate nprocess 0, List.replicate nprocess 0, 0, 0⟩

/-- `registerStep`.
Models: `scaks/solvers/kmc_plugins/frequency_analysis.py` 70-86. -/
def FreqState.register [Zero K] [DecidableEq K] (tofStart : Int) (s : FreqState K) (k : KStep K) : Py (FreqState K) := do
  let occ ← bumpAt s.occ k.picked
  if tofStart ≤ k.step then do
    let steady ← bumpAt s.steady k.picked
    pure ⟨occ, steady, if s.start = 0 then k.time else s.start, k.time⟩
  else pure ⟨occ, s.steady, s.start, k.time⟩

/-- A whole run.
Models: `scaks/solvers/kmc_plugins/frequency_analysis.py` 70-86. -/
def FreqState.run [Zero K] [DecidableEq K] (tofStart : Int) : FreqState K → List (KStep K) → Py (FreqState K)
  | s, [] => .ok s
  | s, k :: ks => do
    let s' ← s.register tofStart k
    FreqState.run tofStart s' ks

/-- The dictionary of occurrences by reaction. Python's set gives the keys in any order; here they
are in order of appearance.
Models: `scaks/solvers/kmc_plugins/frequency_analysis.py` 100-112. -/
def reactionOccurrences (mapping : List Str) (occ : List Nat) : Dict Str Nat :=
  (occ.zip mapping).foldl (fun d p => Dict.bump d p.2 p.1) (mapping.foldl (fun d r => Dict.bump d r 0) [])

/-- The rates in `finalize`.
Models: `scaks/solvers/kmc_plugins/frequency_analysis.py` 119-130. -/
def reactionRates [Field K] [DecidableEq K] (nsites : Int) (s : FreqState K) (d : Dict Str Nat) : Py (Dict Str K) :=
  d.mapM fun p =>
    if (s.stop - s.start) * (nsites : K) = 0 then .error .ZeroDivisionError
    else .ok (p.1, (p.2 : K) / ((s.stop - s.start) * (nsites : K)))

/-- `finalize`: everything that is written, or an exception before writing.
Models: `scaks/solvers/kmc_plugins/frequency_analysis.py` 88-137. -/
def FreqState.finalize [Field K] [DecidableEq K] (mapping : List Str) (nsites : Int) (s : FreqState K) :
    Py (List Nat × Dict Str Nat × Dict Str Nat × Dict Str K) := do
  let rates ← reactionRates nsites s (reactionOccurrences mapping s.steady)
  pure (s.occ, reactionOccurrences mapping s.occ, reactionOccurrences mapping s.steady, rates)

/-! ## Turnover frequencies -/

/-- The state of `TOFAnalysis` without its buffers.
Models: `scaks/solvers/kmc_plugins/tof_analysis.py` 50-54. -/
structure TofState (K : Type) where
  occ : List Nat
  start : K
  deriving DecidableEq

/-- `[0]*nprocess` and start at zero.
Models: `scaks/solvers/kmc_plugins/tof_analysis.py` 50-53. -/
def TofState.init [Zero K] (nprocess : Nat) : TofState K := ⟨List.replicate nprocess 0, 0⟩

/-- `registerStep` up to the flush: the new state and the record that is added, if any.
Models: `scaks/solvers/kmc_plugins/tof_analysis.py` 85-102. -/
def TofState.register [Field K] [LinearOrder K] (nprocess : Nat) (nsites : Int) (interval : K) (s : TofState K)
    (k : KStep K) : Py (TofState K × Option (K × List K)) := do
  let occ ← bumpAt s.occ k.picked
  if k.time - s.start > interval then
    if (nsites : K) * (k.time - s.start) = 0 ∧ occ ≠ [] then .error .ZeroDivisionError
    else .ok (⟨List.replicate nprocess 0, k.time⟩,
      some (s.start, occ.map fun n : Nat => (n : K) / ((nsites : K) * (k.time - s.start))))
  else .ok (⟨occ, s.start⟩, none)

/-- A whole run: the final state and the records in order.
Models: `scaks/solvers/kmc_plugins/tof_analysis.py` 85-102. -/
def TofState.run [Field K] [LinearOrder K] (nprocess : Nat) (nsites : Int) (interval : K) :
    TofState K → List (KStep K) → Py (TofState K × List (K × List K))
  | s, [] => .ok (s, [])
  | s, k :: ks => do
    let (s', r) ← s.register nprocess nsites interval k
    let (s'', rs) ← TofState.run nprocess nsites interval s' ks
    pure (s'', r.toList ++ rs)

/-! ## Event tables -/

/-- A row: index, reaction, available sites, total rate, probability.
Models: `scaks/solvers/kmc_plugins/event_analysis.py` 161-166. -/
structure EventRow (K : Type) where
  idx : Nat
  rxn : Str
  sites : Nat
  rate : K
  prob : K
  deriving DecidableEq

/-- `__get_interactions_table`.
Models: `scaks/solvers/kmc_plugins/event_analysis.py` 139-168. -/
def interactionsTable [Field K] [DecidableEq K] (mapping : List Str) (sites : List Nat) (rates : List K) :
    Py (List (EventRow K)) :=
  let total := List.zipWith (fun (n : Nat) r => (n : K) * r) sites rates
  if total.sum = 0 ∧ total ≠ [] then .error .ZeroDivisionError
  else
    let probs := total.map (· / total.sum)
    .ok ((mapping.zip (sites.zip (total.zip probs))).zipIdx.map fun p =>
      ⟨p.2, p.1.1, p.1.2.1, p.1.2.2.1, p.1.2.2.2⟩)

/-- The state of `EventAnalysis`: the tables written to the file and those in the buffer, each with
the step and the picked index it is printed with.
Models: `scaks/solvers/kmc_plugins/event_analysis.py` 55-64. The printed text is not modelled. -/
structure EventState (T : Type) where
  file : List (Int × List T × Nat)
  buffer : List (Int × List T × Nat)
  previous : List T
  counter : Nat

/-- `__flush`.
Models: `scaks/solvers/kmc_plugins/event_analysis.py` 179-187. -/
def EventState.flush {T : Type} (s : EventState T) : EventState T :=
  { s with file := s.file ++ s.buffer, buffer := [], counter := 0 }

/-- The part of `registerStep` that prints the previous table and keeps the current one.
Models: `scaks/solvers/kmc_plugins/event_analysis.py` 95-105. -/
def EventState.push {T : Type} (s : EventState T) (step : Int) (table : List T) (picked : Nat) : EventState T :=
  if s.previous = [] then { s with previous := table }
  else { s with buffer := s.buffer ++ [(step, s.previous, picked)], counter := s.counter + 1, previous := table }

/-- `registerStep` with the table of the current interactions. Comparison of tables is by emptiness.
Models: `scaks/solvers/kmc_plugins/event_analysis.py` 90-108. -/
def EventState.register {T : Type} (bufferSize : Nat) (s : EventState T) (step : Int) (table : List T) (picked : Nat) :
    EventState T :=
  let s' := s.push step table picked
  if bufferSize ≤ s'.counter then s'.flush else s'

/-- A whole run and `finalize`: the tables in the file.
Models: `scaks/solvers/kmc_plugins/event_analysis.py` 90-108, 170-177. -/
def EventState.written {T : Type} (bufferSize : Nat) : EventState T → List (Int × List T × Nat) → List (Int × List T × Nat)
  | s, [] => s.flush.file
  | s, (step, table, picked) :: l => EventState.written bufferSize (s.register bufferSize step table picked) l

end Verif
