import Verif.Model.Descriptors
import Verif.Model.MeanField
/-
Loading a setup dictionary, `scaks/models/kinetic_model.py`. Instances are dictionaries from
attribute names to values; a component is represented by the name of its class.
-/
namespace Verif
open Dict

/-- What assigning an attribute of a model class does.
Models: `scaks/models/kinetic_model.py` 78-128, 417-508, `scaks/descriptors/descriptors.py` 14-337. -/
inductive AttrKind
  | descr (d : Descr)
  | readonly
  | component (name : Str) (candidates : List Str)
  | plain

/-- The entry of the instance an attribute is kept in.
Models: `scaks/descriptors/descriptors.py` 47, `scaks/descriptors/component_descriptors.py` 34. -/
def AttrKind.slot (cls key : Str) : AttrKind → Str
  | .descr d => privateName cls d.name
  | .component name _ => privateName cls name
  | .readonly => key
  | .plain => key

/-- `Component.__set__`, without the constructor of the component; those of correctors and plotters
read nothing of the model.
Models: `scaks/descriptors/component_descriptors.py` 23-37. -/
def componentSet (cls name : Str) (candidates : List Str) (inst : Dict Str PyVal) : PyVal → Py (Dict Str PyVal)
  | .str s => if s ∈ candidates then .ok (inst.set (privateName cls name) (.str s)) else .error .ValueError
  | _ => .error .ValueError

/-- `setattr(self, key, value)`.
Models: `scaks/models/kinetic_model.py` 291, `scaks/descriptors/descriptors.py` 43-53, 334-337. -/
def setAttr (cls key : Str) (inst : Dict Str PyVal) (v : PyVal) : AttrKind → Py (Dict Str PyVal)
  | .descr d => descrSet cls d inst v
  | .readonly => .error .AttributeError
  | .component name candidates => componentSet cls name candidates inst v
  | .plain => .ok (inst.set key v)

/-- The keys set after the others.
Models: `scaks/models/kinetic_model.py` 287. -/
def laterKeys : List Str := [str! "parser", str! "solver"]

/-- The loop over the setup dictionary.
Models: `scaks/models/kinetic_model.py` 277-308; log output is left out. -/
def loadLoop (attrs : Dict Str AttrKind) (cls : Str) (inst : Dict Str PyVal) : List (Str × PyVal) → Py (Dict Str PyVal)
  | [] => .ok inst
  | (key, v) :: rest =>
    match get? attrs key with
    | none => loadLoop attrs cls inst rest
    | some kind =>
      if key ∈ laterKeys then loadLoop attrs cls inst rest
      else do
        let inst ← setAttr cls key inst v kind
        loadLoop attrs cls inst rest

/-- A loaded model: attributes, and what was parsed if there are reactions.
Models: `scaks/models/kinetic_model.py` 310-330. -/
structure Loaded where
  inst : Dict Str PyVal
  net : Option Network

/-- The reaction expressions as texts.
Models: `scaks/models/kinetic_model.py` 319, `scaks/parsers/parser_base.py` 60. -/
def exprTexts (v : PyVal) : Py (List Str) :=
  match v.seq? with
  | none => .error .TypeError
  | some l => l.mapM fun e => match e with | .str s => .ok s | _ => .error .TypeError

/-- `self.parser = setup_dict["parser"]`: the constructor takes the species definitions from the
private attribute, which must be there.
Models: `scaks/models/kinetic_model.py` 310-313, `scaks/parsers/parser_base.py` 21-33,
`scaks/descriptors/component_descriptors.py` 23-37. -/
def setParser (cls : Str) (candidates : List Str) (inst : Dict Str PyVal) (setup : Dict Str PyVal) : Py (Dict Str PyVal) :=
  match get? setup (str! "parser") with
  | none => .error .ParameterError
  | some v => do
    let inst' ← componentSet cls (str! "parser") candidates inst v
    match get? inst (privateName cls (str! "species_definitions")) with
    | none => .error .AttributeError
    | some _ => .ok inst'

/-- `numerical_representation == 'mpmath'`.
Models: `scaks/solvers/mean_field_solver.py` 61. -/
def PyVal.isMpmath : PyVal → Bool
  | .str s => decide (s = str! "mpmath")
  | _ => false

/-- What the constructor of a solver does: the one for steady states needs the parsed reactions and
`mpmath` numbers and classifies the adsorbates.
Models: `scaks/solvers/mean_field_solver.py` 23-53, 105-122, 132-148, `scaks/solvers/kmc_solver.py` 28-45.
Its reads store defaults. -/
def buildSolver (cls : Str) (numRep precision temperature : Descr) (m : Loaded) : Str → Py Loaded
  | name =>
    if name = str! "SteadyStateSolver" then do
      let (r, inst) := descrGet cls numRep m.inst
      let inst := if r.isMpmath then (descrGet cls precision inst).2 else inst
      match m.net with
      | none => .error .AttributeError
      | some n =>
        if r.isMpmath then do
          let inst := (descrGet cls temperature inst).2
          let _ ← classifyAds n
          pure { m with inst := inst }
        else .error .AttributeError
    else .ok m

/-- The attributes of a class that loading uses by name.
Models: `scaks/models/kinetic_model.py` 95-113, `scaks/models/micro_kinetic_model.py` 88, 100-102. -/
structure LoadAttrs where
  parsers : List Str
  solvers : List Str
  exprs : Descr
  numRep : Descr
  precision : Descr
  temperature : Descr

/-- Parsing the reactions, if there are any.
Models: `scaks/models/kinetic_model.py` 315-326. -/
def parseExprs (inst : Dict Str PyVal) (texts : List Str) : Py Loaded :=
  if texts = [] then .ok ⟨inst, none⟩ else do
    let n ← parseNetwork texts
    pure ⟨inst, some n⟩

/-- `self.solver = setup_dict["solver"]`, if it is there.
Models: `scaks/models/kinetic_model.py` 328-330, `scaks/descriptors/component_descriptors.py` 23-37. -/
def setSolver (cls : Str) (a : LoadAttrs) (m : Loaded) : Option PyVal → Py Loaded
  | none => .ok m
  | some (.str s) =>
    if s ∈ a.solvers then do
      let m ← buildSolver cls a.numRep a.precision a.temperature m s
      pure { m with inst := m.inst.set (privateName cls (str! "solver")) (.str s) }
    else .error .ValueError
  | some _ => .error .ValueError

/-- `_load`.
Models: `scaks/models/kinetic_model.py` 262-330. -/
def load (attrs : Dict Str AttrKind) (cls : Str) (a : LoadAttrs) (inst : Dict Str PyVal) (setup : Dict Str PyVal) : Py Loaded := do
  let inst ← loadLoop attrs cls inst setup
  let inst ← setParser cls a.parsers inst setup
  let texts ← exprTexts (descrGet cls a.exprs inst).1
  let m ← parseExprs (descrGet cls a.exprs inst).2 texts
  setSolver cls a m (get? setup (str! "solver"))

/-! ## The attributes of `MicroKineticModel` -/

/-- `Integer(name, default, candidates)`.
Models: `scaks/descriptors/descriptors.py` 84-99. -/
def intDescr (name : Str) (default : Int) (candidates : Option (PyVal → Bool)) : Descr :=
  ⟨name, typeCheck .int candidates, .int default⟩

/-- `Float(name, default)`.
Models: `scaks/descriptors/descriptors.py` 102-129. -/
def floatDescr (name : Str) (default : PyVal) : Descr := ⟨name, floatCheck none, default⟩

/-- `String(name, default, candidates)`.
Models: `scaks/descriptors/descriptors.py` 132-147. -/
def strDescr (name default : Str) (candidates : List Str) : Descr :=
  ⟨name, typeCheck .str (if candidates = [] then none else some fun v => match v with | .str s => decide (s ∈ candidates) | _ => false),
    .str default⟩

/-- `value in range(0, 60, 10)`, for integers.
Models: `scaks/models/kinetic_model.py` 83, 88, 93. -/
def levelCand : PyVal → Bool
  | .int z => decide (z ∈ [0, 10, 20, 30, 40, 50])
  | _ => false

/-- The class name. Models: `scaks/models/micro_kinetic_model.py` 19. -/
def microName : Str := str! "MicroKineticModel"

/-- Models: `scaks/models/kinetic_model.py` 113. -/
def exprsDescr : Descr := ⟨str! "rxn_expressions", sequenceCheck (some .str) none, .list []⟩
/-- Models: `scaks/models/kinetic_model.py` 110. -/
def temperatureDescr : Descr := floatDescr (str! "temperature") (.float 298)
/-- Models: `scaks/models/micro_kinetic_model.py` 88. -/
def precisionDescr : Descr := intDescr (str! "decimal_precision") 100 none
/-- Models: `scaks/models/micro_kinetic_model.py` 100-102. -/
def numRepDescr : Descr := strDescr (str! "numerical_representation") (str! "mpmath") [str! "mpmath", str! "sympy"]

/-- The attributes that are assigned through descriptors.
Models: `scaks/models/kinetic_model.py` 78-93, 110-128, `scaks/models/micro_kinetic_model.py` 88-118, 123;
no value of this model is an analysis plugin, so `analysis` accepts empty sequences only. -/
def microDescrs : List (Str × Descr) :=
  [(str! "setup_file", strDescr (str! "setup_file") [] []),
   (str! "setup_dict", ⟨str! "setup_dict", typeCheck .dict none, .dict []⟩),
   (str! "logger_level", intDescr (str! "logger_level") 20 (some levelCand)),
   (str! "file_handler_level", intDescr (str! "file_handler_level") 10 (some levelCand)),
   (str! "console_handler_level", intDescr (str! "console_handler_level") 20 (some levelCand)),
   (str! "temperature", temperatureDescr),
   (str! "rxn_expressions", exprsDescr),
   (str! "species_definitions", ⟨str! "species_definitions", speciesCheck, .dict []⟩),
   (str! "rate_algo", strDescr (str! "rate_algo") (str! "TST") []),
   (str! "components", ⟨str! "components", sequenceCheck (some .str) none, .list [.str (str! "parser")]⟩),
   (str! "unitcell_area", floatDescr (str! "unitcell_area") (.float 0)),
   (str! "active_ratio", floatDescr (str! "active_ratio") (.float 1)),
   (str! "decimal_precision", precisionDescr),
   (str! "perturbation_size", floatDescr (str! "perturbation_size") (.float (1 / 100))),
   (str! "perturbation_direction", strDescr (str! "perturbation_direction") (str! "right") [str! "right", str! "left"]),
   (str! "archived_variables", ⟨str! "archive_data", sequenceCheck (some .str) none, .list [.str (str! "steady_state_coverages")]⟩),
   (str! "numerical_representation", numRepDescr),
   (str! "rootfinding", strDescr (str! "rootfinding") (str! "MDNewton") [str! "MDNewton", str! "ConstrainedNewton"]),
   (str! "tolerance", floatDescr (str! "tolerance") (.float (1 / 100000000))),
   (str! "max_rootfinding_iterations", intDescr (str! "max_rootfinding_iterations") 100 none),
   (str! "ode_buffer_size", intDescr (str! "ode_buffer_size") 500 none),
   (str! "ode_output_interval", intDescr (str! "ode_output_interval") 200 none),
   (str! "ref_energies", ⟨str! "ref_energies", refEnergiesCheck, .dict []⟩),
   (str! "analysis", ⟨str! "analysis", sequenceCheck (some .none) (some fun _ => false), .list []⟩)]

/-- The components.
Models: `scaks/models/kinetic_model.py` 95-107. -/
def microComponents : List (Str × List Str) :=
  [(str! "parser", [str! "RelativeEnergyParser", str! "AbsoluteEnergyParser", str! "KMCParser"]),
   (str! "solver", [str! "KMCSolver", str! "SteadyStateSolver"]),
   (str! "corrector", [str! "ThermodynamicCorrector"]),
   (str! "plotter", [str! "EnergyProfilePlotter"])]

/-- The properties, which cannot be assigned.
Models: `scaks/models/kinetic_model.py` 417-508, `scaks/models/micro_kinetic_model.py` 311-370. -/
def microReadonly : List Str :=
  [str! "log_allowed", str! "kB", str! "h", str! "logger", str! "elementary_rxns_list", str! "site_names", str! "adsorbate_names",
   str! "gas_names", str! "liquid_names", str! "transition_state_names", str! "has_relative_energy", str! "has_absolute_energy",
   str! "relative_energies", str! "absolute_energies", str! "model_info", str! "data_file", str! "steady_state_coverages",
   str! "TOFs", str! "reversibilities", str! "error"]

/-- Methods and functions, which an entry of the same name silently replaces.
Models: `scaks/models/kinetic_model.py` 183, 219, 247, 262, 332, 350, 374-409,
`scaks/models/micro_kinetic_model.py` 120, 146, 283, 298; names with two leading underscores are left out. -/
def microPlain : List Str :=
  [str! "_set_logger", str! "set_logger_level", str! "clear_handlers", str! "_load", str! "generate_relative_energies_file",
   str! "generate_absolute_energies_file", str! "run", str! "set_solver", str! "set_corrector", str! "set_plotter",
   str! "hybrid_method", str! "hybrid_method_register", str! "analysis_register"]

/-- All attributes of the class.
Models: `scaks/models/kinetic_model.py` 251-260. -/
def microAttrs : Dict Str AttrKind :=
  microDescrs.map (fun p => (p.1, .descr p.2)) ++ microComponents.map (fun p => (p.1, .component p.1 p.2)) ++
  microReadonly.map (fun k => (k, .readonly)) ++ microPlain.map (fun k => (k, .plain))

/-- What `_load` uses of the class.
Models: `scaks/models/kinetic_model.py` 95-113. -/
def microLoad : LoadAttrs :=
  ⟨[str! "RelativeEnergyParser", str! "AbsoluteEnergyParser", str! "KMCParser"], [str! "KMCSolver", str! "SteadyStateSolver"],
    exprsDescr, numRepDescr, precisionDescr, temperatureDescr⟩

/-- The instance when `_load` is called: logging levels and the dictionary are assigned, other
entries have no attribute of the class.
Models: `scaks/models/kinetic_model.py` 139-157. -/
def microInit (logger file console : Int) (setup : Dict Str PyVal) : Dict Str PyVal :=
  [(privateName microName (str! "logger_level"), .int logger),
   (privateName microName (str! "file_handler_level"), .int file),
   (privateName microName (str! "console_handler_level"), .int console),
   (privateName microName (str! "setup_dict"), .dict (setup.map fun e => (.str e.1, e.2)))]

end Verif
