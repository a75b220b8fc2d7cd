import Verif.Py.Basic
import Mathlib.Algebra.Group.Defs
import Mathlib.Order.Defs.LinearOrder
/-
Data files written by the analysis plugins and by the ODE integration, and their execution as
Python programs. Numbers are kept as values: that `str` of a number reads back as the number is
not modelled. Comments and layout are left out.
-/
namespace Verif
open Dict

/-- An entry of a written list, and its value after execution: a number, a text, or a list of
numbers.
Models: the entries given to `scaks/utilities/format_utilities.py` 10-48. -/
inductive Elem (α : Type)
  | num (a : α)
  | str (s : Str)
  | nums (l : List α)
  deriving DecidableEq

/-- The statements of data files: `var = [...]`, `var.extend(src)`, `var[i].extend(src[j])`.
Models: `scaks/utilities/format_utilities.py` 28-46,
`scaks/solvers/kmc_plugins/coverages_analysis.py` 97-101, 151-172. -/
inductive Stmt (α : Type)
  | assign (var : Str) (l : List (Elem α))
  | extend (var src : Str)
  | extendAt (var : Str) (i : Nat) (src : Str) (j : Nat)
  deriving DecidableEq

/-! ## Reading -/

/-- Reading single-quoted text literals next to each other. Escapes, line breaks and literal
prefixes are not modelled and give no value.
Models: Python's reading of `"'" + elem + "', "`, `scaks/utilities/format_utilities.py` 39-41. -/
def readLit : Bool → Str → Option Str
  | false, [] => some []
  | true, [] => none
  | false, c :: r => if c = ' ' then readLit false r else if c = '\'' then readLit true r else none
  | true, c :: r =>
    if c = '\'' then readLit false r
    else if c = '\\' ∨ c = '\n' then none
    else (readLit true r).map (c :: ·)

/-- The text written for a string entry, read back.
Models: `scaks/utilities/format_utilities.py` 39-41. -/
def readStr (s : Str) : Option Str := readLit false ('\'' :: s ++ ['\''])

/-- The value of an entry; a text that cannot be read is a syntax error.
Models: `scaks/utilities/format_utilities.py` 30-43. -/
def evalElem {α : Type} : Elem α → Py (Elem α)
  | .num a => .ok (.num a)
  | .nums l => .ok (.nums l)
  | .str s => match readStr s with
    | some t => .ok (.str t)
    | none => .error .SyntaxError

/-- Variables and their lists. -/
abbrev Vars (α : Type) := Dict Str (List (Elem α))

/-- `var`, `NameError` if there is none.
Models: the names in `scaks/solvers/kmc_plugins/coverages_analysis.py` 154-172. -/
def varGet {α : Type} (env : Vars α) (v : Str) : Py (List (Elem α)) :=
  match get? env v with
  | some l => .ok l
  | none => .error .NameError

/-- `l[i]` as a list of numbers; numbers and texts have no `extend`.
Models: `scaks/solvers/kmc_plugins/coverages_analysis.py` 168-172. -/
def numsAt {α : Type} (l : List (Elem α)) (i : Nat) : Py (List α) :=
  match l[i]? with
  | none => .error .IndexError
  | some (.nums x) => .ok x
  | some _ => .error .AttributeError

/-- Execution of a statement.
Models: the written statements of `scaks/solvers/kmc_plugins/coverages_analysis.py` 151-179. -/
def execStmt {α : Type} (env : Vars α) : Stmt α → Py (Vars α)
  | .assign v l => do
    let vals ← l.mapM evalElem
    pure (env.set v vals)
  | .extend v src => do
    let a ← varGet env v
    let b ← varGet env src
    pure (env.set v (a ++ b))
  | .extendAt v i src j => do
    let a ← varGet env v
    let x ← numsAt a i
    let b ← varGet env src
    let y ← numsAt b j
    pure (env.set v (a.set i (.nums (x ++ y))))

/-- Execution of statements in order.
Models: execution of the written files. -/
def execAll {α : Type} : Vars α → List (Stmt α) → Py (Vars α)
  | env, [] => .ok env
  | env, s :: ss => do
    let env' ← execStmt env s
    execAll env' ss

/-- A statement that is no Python.
Models: Python's reading of the written files. -/
def badSyntax {α : Type} : Stmt α → Bool
  | .assign _ l => l.any fun e => match e with | .str s => (readStr s).isNone | _ => false
  | _ => false

/-- Execution of a file: a syntax error anywhere stops it before its first statement.
Models: execution of the written files. -/
def execFile {α : Type} (file : List (Stmt α)) : Py (Vars α) :=
  if file.any badSyntax then .error .SyntaxError else execAll [] file

/-! ## Writing -/

/-- `"{name}_{counter}"`.
Models: `scaks/solvers/kmc_plugins/coverages_analysis.py` 152, 158, 165. -/
def chunkVar (name : Str) (k : Nat) : Str := name ++ '_' :: Nat.toDigits 10 k

/-- A list written to a numbered variable that then extends the variable.
Models: `scaks/solvers/kmc_plugins/coverages_analysis.py` 151-161, `tof_analysis.py` 124-134,
`scaks/solvers/steady_state_solver.py` 1334-1344. -/
def extendBy {α : Type} (name : Str) (k : Nat) (l : List (Elem α)) : List (Stmt α) :=
  [.assign (chunkVar name k) l, .extend name (chunkVar name k)]

/-- `zip(*rows)`.
Models: `scaks/solvers/kmc_plugins/coverages_analysis.py` 164. -/
def zipStar {α : Type} : List (List α) → List (List α)
  | [] => []
  | [r] => r.map fun x => [x]
  | r :: rs => List.zipWith (· :: ·) r (zipStar rs)

/-! ### Coverages -/

/-- A recording of `CoveragesAnalysis`: time, step and coverages.
Models: `scaks/solvers/kmc_plugins/coverages_analysis.py` 107-129. -/
structure CovRec (α : Type) where
  time : α
  step : α
  cvgs : List α

/-- The recorder: written statements, buffer and flush counter.
Models: `scaks/solvers/kmc_plugins/coverages_analysis.py` 53-69. -/
structure CovState (α : Type) where
  file : List (Stmt α)
  buffer : List (CovRec α)
  counter : Nat

/-- What `setup` writes: every type is quoted before it is quoted again by `get_list_string`.
Models: `scaks/solvers/kmc_plugins/coverages_analysis.py` 95-105. -/
def covHeader {α : Type} (possible : List Str) : List (Stmt α) :=
  [.assign (str! "times") [], .assign (str! "steps") [],
   .assign (str! "coverages") (List.replicate possible.length (.nums [])),
   .assign (str! "possible_types") (possible.map fun s => .str ('\'' :: s ++ ['\'']))]

/-- What a flush writes.
Models: `scaks/solvers/kmc_plugins/coverages_analysis.py` 147-179. -/
def covChunk {α : Type} (ntypes k : Nat) (buffer : List (CovRec α)) : List (Stmt α) :=
  extendBy (str! "times") k (buffer.map fun r => .num r.time) ++
  extendBy (str! "steps") k (buffer.map fun r => .num r.step) ++
  .assign (chunkVar (str! "coverages") k) ((zipStar (buffer.map (·.cvgs))).map .nums) ::
  (List.range ntypes).map fun i => .extendAt (str! "coverages") i (chunkVar (str! "coverages") k) i

/-- `__flush`.
Models: `scaks/solvers/kmc_plugins/coverages_analysis.py` 147-190. -/
def CovState.flush {α : Type} (ntypes : Nat) (s : CovState α) : CovState α :=
  ⟨s.file ++ covChunk ntypes s.counter s.buffer, [], s.counter + 1⟩

/-- `registerStep` after the coverages are known.
Models: `scaks/solvers/kmc_plugins/coverages_analysis.py` 107-133. -/
def CovState.register {α : Type} (ntypes bufferSize : Nat) (s : CovState α) (r : CovRec α) : CovState α :=
  let s' : CovState α := { s with buffer := s.buffer ++ [r] }
  if bufferSize ≤ s'.buffer.length then s'.flush ntypes else s'

/-- The file of a run: `setup` records without looking at the buffer, `finalize` flushes.
Models: `scaks/solvers/kmc_plugins/coverages_analysis.py` 71-145. -/
def covFile {α : Type} (header : List (Stmt α)) (ntypes bufferSize : Nat) (first : CovRec α) (rest : List (CovRec α)) : List (Stmt α) :=
  ((rest.foldl (CovState.register ntypes bufferSize) ⟨header, [first], 0⟩).flush ntypes).file

/-! ### Turnover frequencies -/

/-- The recorder of `TOFAnalysis`.
Models: `scaks/solvers/kmc_plugins/tof_analysis.py` 54, 62-64. -/
structure TofFile (α : Type) where
  file : List (Stmt α)
  buffer : List (α × List α)
  counter : Nat

/-- What `setup` writes.
Models: `scaks/solvers/kmc_plugins/tof_analysis.py` 75-83. -/
def tofHeader {α : Type} (mapping : List Str) : List (Stmt α) :=
  [.assign (str! "times") [], .assign (str! "tofs") [], .assign (str! "processes") (mapping.map .str)]

/-- What a flush writes.
Models: `scaks/solvers/kmc_plugins/tof_analysis.py` 124-139. -/
def tofChunk {α : Type} (k : Nat) (buffer : List (α × List α)) : List (Stmt α) :=
  extendBy (str! "times") k (buffer.map fun r => .num r.1) ++
  extendBy (str! "tofs") k (buffer.map fun r => .nums r.2)

/-- `__flush`.
Models: `scaks/solvers/kmc_plugins/tof_analysis.py` 120-149. -/
def TofFile.flush {α : Type} (s : TofFile α) : TofFile α :=
  ⟨s.file ++ tofChunk s.counter s.buffer, [], s.counter + 1⟩

/-- The part of `registerStep` that keeps a record.
Models: `scaks/solvers/kmc_plugins/tof_analysis.py` 96-97, 104-107. -/
def TofFile.record {α : Type} (bufferSize : Nat) (s : TofFile α) (r : α × List α) : TofFile α :=
  let s' : TofFile α := { s with buffer := s.buffer ++ [r] }
  if bufferSize ≤ s'.buffer.length then s'.flush else s'

/-- `finalize`.
Models: `scaks/solvers/kmc_plugins/tof_analysis.py` 109-118. -/
def TofFile.finalize {α : Type} (s : TofFile α) : TofFile α :=
  if s.buffer.length > 0 then s.flush else s

/-- The file of a run with its records.
Models: `scaks/solvers/kmc_plugins/tof_analysis.py` 75-118. -/
def tofFile {α : Type} (mapping : List Str) (bufferSize : Nat) (records : List (α × List α)) : List (Stmt α) :=
  ((records.foldl (TofFile.record bufferSize) ⟨tofHeader mapping, [], 0⟩).finalize).file

/-! ### ODE integration -/

/-- An integrator: the state has a time and coverages; a step to a time may raise.
Models: the `ode` object, `scaks/solvers/steady_state_solver.py` 1259-1262, 1291. The integration
itself is not modelled. -/
structure Integrator (α σ : Type) where
  time : σ → α
  cvgs : σ → List α
  integrate : σ → α → Py σ

/-- What is written at the start.
Models: `scaks/solvers/steady_state_solver.py` 1277-1282. -/
def odeHeader {α : Type} : List (Stmt α) :=
  [.assign (str! "times") [], .assign (str! "coverages") []]

/-- `__ode_flush`.
Models: `scaks/solvers/steady_state_solver.py` 1329-1360. -/
def odeChunk {α : Type} (k : Nat) (ts : List α) (ys : List (List α)) : List (Stmt α) :=
  extendBy (str! "times") k (ts.map .num) ++ extendBy (str! "coverages") k (ys.map .nums)

/-- The variables of the loop.
Models: `scaks/solvers/steady_state_solver.py` 1264, 1278, 1284. -/
structure OdeVars (α : Type) where
  file : List (Stmt α)
  ts : List α
  ys : List (List α)
  counter : Nat
  nstep : Nat

/-- One turn of the loop. The interval is not negative.
Models: `scaks/solvers/steady_state_solver.py` 1286-1309. -/
def odeTurn {α σ : Type} [Add α] (I : Integrator α σ) (step : α) (interval : Nat) (output : Bool) (s : σ) (v : OdeVars α) :
    Py (σ × OdeVars α) :=
  if interval = 0 then .error .ZeroDivisionError
  else do
    let s' ← I.integrate s (I.time s + step)
    if output = true ∧ (v.nstep + 1) % interval = 0 then
      pure (s', ⟨v.file ++ odeChunk v.counter (v.ts ++ [I.time s']) (v.ys ++ [I.cvgs s']), [], [], v.counter + 1, v.nstep + 1⟩)
    else pure (s', { v with nstep := v.nstep + 1 })

/-- The loop with at most `fuel` turns; `none` if it is still running. The result, the variables
and the last state are kept when a turn raises.
Models: `scaks/solvers/steady_state_solver.py` 1286-1309. -/
def odeLoop {α σ : Type} [Add α] [LT α] [DecidableLT α] (I : Integrator α σ) (tEnd step : α) (interval : Nat) (output : Bool) :
    Nat → σ → OdeVars α → Option (Py Unit × σ × OdeVars α)
  | 0, _, _ => none
  | fuel + 1, s, v =>
    if I.time s < tEnd then
      match odeTurn I step interval output s v with
      | .error e => some (.error e, s, v)
      | .ok (s', v') => odeLoop I tEnd step interval output fuel s' v'
    else some (.ok (), s, v)

/-- `solve_ode` from an initialised integrator: the result and the file, if any.
Models: `scaks/solvers/steady_state_solver.py` 1264-1326. -/
def solveOde {α σ : Type} [Add α] [LT α] [DecidableLT α] (I : Integrator α σ) (tEnd step : α) (interval : Nat) (output : Bool)
    (fuel : Nat) (s : σ) : Option (Py (α × List α) × Option (List (Stmt α))) :=
  match odeLoop I tEnd step interval output fuel s ⟨odeHeader, [], [], 0, 0⟩ with
  | none => none
  | some (r, s', v) =>
    some (r.map (fun _ => (I.time s', I.cvgs s')),
      if output then some (v.file ++ odeChunk v.counter v.ts v.ys) else none)

end Verif
