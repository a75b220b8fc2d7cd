import Verif.Py.Sort
import Verif.Model.Hybrid
import Verif.Model.Run
/-
The script that runs a micro-kinetic model in the current directory, `scripts/mkm_run/run.py`.
-/
namespace Verif

/-- The parameters at the head of the script.
Models: `scripts/mkm_run/run.py` 14-20. -/
structure MkmArgs (K : Type) where
  odeInterval : K
  odeEnd : K
  odeOutput : Bool
  calcXRC : Bool
  product : Str
  odeOnly : Bool

/-- The parameters as they are written there.
Models: `scripts/mkm_run/run.py` 14-20. -/
def mkmDefaults {K : Type} [Field K] : MkmArgs K := ⟨1 / 1000, 1, true, false, str! "CO2_g", false⟩

/-- The files that `*.mkm` stands for.
Models: `scripts/mkm_run/run.py` 30. -/
def isSetupName (n : Str) : Bool := (str! ".mkm").isSuffixOf n && n.head? != some '.'

/-- The output of `ls *.mkm | tail -1` in a directory with files of these names; its status is that of `tail`, always zero.
The order of `ls` is that of the code points here (the locale C).
Models: `scripts/mkm_run/run.py` 29-35. -/
def setupName (names : List Str) : Str :=
  match (sortedSet (names.filter isSetupName)).getLast? with
  | some n => n
  | none => str! "ls: cannot access '*.mkm': No such file or directory"

/-- How the script ends: model and solver, the trajectory file if any, the keyword arguments warned about, and the error if
any (it is written to the log and raised again).
Models: `scripts/mkm_run/run.py` 38-65. -/
structure ScriptEnd (K : Type) where
  state : RunState K
  file : Option (List (Stmt K))
  warnings : List Str
  result : Py Unit

/-- The script after the model has been made and its data have been read; `none` if it has not ended. `run` takes
`solve_ode` for a redundant argument and warns.
Models: `scripts/mkm_run/run.py` 48-65, `scaks/models/micro_kinetic_model.py` 178-191. -/
def mkmScript {K σ β : Type} [Field K] [LinearOrder K] (a : MkmArgs K) (I : Integrator K σ) (start : List K → K → σ) (nads interval : Nat)
    (boltz : Py (List K)) (load : List β → Py (Dict Str (List K))) (data : FileContent β) (fuel : Nat) (env : RunEnv K) (st : RunState K) :
    Option (ScriptEnd K) :=
  match odeInitial nads boltz none with
  | .error e => some ⟨st, none, [], .error e⟩
  | .ok c =>
    match solveOde I a.odeEnd a.odeInterval interval a.odeOutput fuel (start c 0) with
    | none => none
    | some (.error e, f) => some ⟨st, f, [], .error e⟩
    | some (.ok (_, g), f) =>
      (runModel env (runPlan load nads (.seq g) false false data) (if a.calcXRC then some (some a.product) else none) st).map
        fun r => ⟨r.1, f, [str! "solve_ode"], r.2⟩

end Verif
