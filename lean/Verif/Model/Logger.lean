import Verif.Py.Basic
/-
The logger shared by all models and the methods that exchange components, `scaks/models/kinetic_model.py`.
-/
namespace Verif
open Dict

/-! ## Logger -/

/-- A handler: its class name, its level, and the model that created it.
Models: `scaks/models/kinetic_model.py` 202-205. -/
structure Handler where
  cls : Str
  level : Int
  model : Nat
  deriving DecidableEq

/-- The logger named `model`: there is one for the whole program. The number of models created so far is kept to tell
them apart.
Models: `scaks/models/kinetic_model.py` 188-189, `logging.getLogger`. -/
structure Logger where
  level : Int
  handlers : List Handler
  models : Nat
  deriving DecidableEq

/-- The logger before the first model; the level is that of the root logger.
Models: `logging.getLogger`. -/
def Logger.fresh : Logger := ⟨30, [], 0⟩

/-- What a program does with models.
Models: `scaks/models/kinetic_model.py` 183-250. -/
inductive LogOp
  | create (logger file console : Int)
  | setLevel (cls : Str) (level : Int)
  | clear
  deriving DecidableEq

/-- `_set_logger`: two handlers are added; nothing is removed. Log files can be opened.
Models: `scaks/models/kinetic_model.py` 183-217. -/
def addHandlers (g : Logger) (level file console : Int) : Logger :=
  ⟨level, g.handlers ++ [⟨str! "FileHandler", file, g.models⟩, ⟨str! "StreamHandler", console, g.models⟩], g.models + 1⟩

/-- `set_logger_level`: the first handler of the class. The model does not matter, all share the logger.
Models: `scaks/models/kinetic_model.py` 219-245. -/
def setHandlerLevel (cls : Str) (level : Int) : List Handler → Py (List Handler × Int)
  | [] => .error .ValueError
  | h :: hs =>
    if h.cls = cls then .ok ({ h with level := level } :: hs, h.level)
    else do
      let r ← setHandlerLevel cls level hs
      pure (h :: r.1, r.2)

/-- One operation; `set_logger_level` gives back the old level.
Models: `scaks/models/kinetic_model.py` 183-250. -/
def logStep (g : Logger) : LogOp → Logger × Py (Option Int)
  | .create l f c => (addHandlers g l f c, .ok none)
  | .setLevel cls level =>
    match setHandlerLevel cls level g.handlers with
    | .ok r => ({ g with handlers := r.1 }, .ok (some r.2))
    | .error e => (g, .error e)
  | .clear => ({ g with handlers := [] }, .ok none)

/-- A whole program.
Models: `scaks/models/kinetic_model.py` 183-250. -/
def logRun (g : Logger) (ops : List LogOp) : Logger := ops.foldl (fun g op => (logStep g op).1) g

/-- The handlers that write a message of the given level.
Models: `logging.Logger.callHandlers`; the handlers of the root logger are left out. -/
def writes (g : Logger) (level : Int) : List Handler :=
  if g.level ≤ level then g.handlers.filter fun h => h.level ≤ level else []

/-! ## Components -/

/-- An object given as a component.
Models: `scaks/models/kinetic_model.py` 379-415. -/
inductive CompObj
  | solver (id : Nat)
  | corrector (id : Nat)
  | plotter (id : Nat)
  | other (id : Nat)
  deriving DecidableEq

/-- `mangled_name` for text.
Models: `scaks/functions.py` 115-140. -/
def mangled (cls name : Str) : Str := str! "_" ++ cls ++ str! "__" ++ name

/-- `set_solver`.
Models: `scaks/models/kinetic_model.py` 379-388. -/
def swapSolver (cls : Str) (inst : Dict Str CompObj) (v : CompObj) : Py (Dict Str CompObj) :=
  match v with
  | .solver _ => .ok (Dict.set inst (mangled cls (str! "solver")) v)
  | _ => .error .TypeError

/-- `set_corrector`: of the two methods of this name the second counts.
Models: `scaks/models/kinetic_model.py` 409-415. -/
def swapCorrector (cls : Str) (inst : Dict Str CompObj) (v : CompObj) : Py (Dict Str CompObj) :=
  .ok (Dict.set inst (mangled cls (str! "corrector")) v)

/-- `set_plotter`: what is stored is not the argument but the value of the name `solver` in the module.
Models: `scaks/models/kinetic_model.py` 401-407. -/
def swapPlotter (cls : Str) (globals inst : Dict Str CompObj) (plotter : CompObj) : Py (Dict Str CompObj) :=
  match get? [(str! "plotter", plotter)] (str! "solver") with
  | some v => .ok (Dict.set inst (mangled cls (str! "plotter")) v)
  | none => match get? globals (str! "solver") with
    | some v => .ok (Dict.set inst (mangled cls (str! "plotter")) v)
    | none => .error .NameError

/-- Reading a component.
Models: `scaks/descriptors/component_descriptors.py` 7-38, `scaks/descriptors/descriptors.py` 20-36. -/
def readComp (cls : Str) (inst : Dict Str CompObj) (name : Str) : Option CompObj := get? inst (mangled cls name)

end Verif
