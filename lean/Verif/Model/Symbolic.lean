import Verif.Model.MeanField
/-
The symbolic parts of `scaks/solvers/mean_field_solver.py` and `scaks/solvers/steady_state_solver.py`.
Sympy expressions are trees. Sympy rewrites expressions while building them; the rewriting does not
change values and is left out, as are conversions between number types. `ex` stands for the
exponential function of the numbers.
-/
namespace Verif
open Dict

/-- The symbols the solver makes. Names of different kinds start differently, so they are different
symbols. The symbols `K_i` are never used.
Models: `scaks/solvers/mean_field_solver.py` 41, 630-668. -/
inductive Symb
  | p (name : Str)
  | c (name : Str)
  | theta (name : Str)
  | ga (i : Nat)
  | dg (i : Nat)
  | kB
  | h
  | T
  deriving DecidableEq

/-- Expressions.
Models: `scaks/solvers/mean_field_solver.py` 644-650, 765-772, 824, 1002, 1042, `scaks/solvers/steady_state_solver.py` 545-548, 565. -/
inductive SymExpr (K : Type)
  | num (x : K)
  | sym (s : Symb)
  | add (a b : SymExpr K)
  | sub (a b : SymExpr K)
  | mul (a b : SymExpr K)
  | div (a b : SymExpr K)
  | pow (a : SymExpr K) (n : Nat)
  | exp (a : SymExpr K)

/-- The solver with its model: `free` are the expressions of the free sites once `get_data_symbols`
has been called, `data` pressures and concentrations once `get_data` has been called; `gaf` and `dg`
are the entries of the model's relative energies.
Models: `scaks/solvers/mean_field_solver.py` 38-52, 167-184, 622-673. -/
structure SymSolver (K : Type) where
  o : MFOwner K
  free : Option (List (SymExpr K))
  data : Option (Dict Str K × Dict Str K)
  gaf : Option (List K)
  dg : Option (List K)
  kB : K
  h : K
  T : K

section
variable {K : Type} [Field K] [DecidableEq K]

/-- `expr.evalf(subs=…)` turned into a number. A symbol without value stays in the expression, and a
division by zero gives an infinity; neither can be turned into a number. Symbols that cancel while
sympy builds the expression need no value in the code; here they do.
Models: `scaks/solvers/mean_field_solver.py` 911-916, 938-943, 1021-1024, 1059-1062, `scaks/solvers/steady_state_solver.py` 613, 661-662. -/
def evalSym (ex : K → K) (subs : Dict Symb K) : SymExpr K → Py K
  | .num x => .ok x
  | .sym s => match get? subs s with
    | some x => .ok x
    | none => .error .TypeError
  | .add a b => do pure ((← evalSym ex subs a) + (← evalSym ex subs b))
  | .sub a b => do pure ((← evalSym ex subs a) - (← evalSym ex subs b))
  | .mul a b => do pure ((← evalSym ex subs a) * (← evalSym ex subs b))
  | .div a b => do
    let x ← evalSym ex subs a
    let y ← evalSym ex subs b
    if y = 0 then .error .TypeError else pure (x / y)
  | .pow a n => do pure ((← evalSym ex subs a) ^ n)
  | .exp a => do pure (ex (← evalSym ex subs a))

/-- `sym.Derivative(e, s).doit()`.
Models: `scaks/solvers/steady_state_solver.py` 636. -/
def SymExpr.deriv (s : Symb) : SymExpr K → SymExpr K
  | .num _ => .num 0
  | .sym t => .num (if t = s then 1 else 0)
  | .add a b => .add (a.deriv s) (b.deriv s)
  | .sub a b => .sub (a.deriv s) (b.deriv s)
  | .mul a b => .add (.mul (a.deriv s) b) (.mul a (b.deriv s))
  | .div a b => .div (.sub (.mul (a.deriv s) b) (.mul a (b.deriv s))) (.pow b 2)
  | .pow a n => .mul (.mul (.num (n : K)) (.pow a (n - 1))) (a.deriv s)
  | .exp a => .mul (.exp a) (a.deriv s)

/-- `_extract_symbol` for an adsorbate.
Models: `scaks/solvers/mean_field_solver.py` 697-720. -/
def extractAds (n : Network) (name : Str) : Py (SymExpr K) :=
  if name ∈ n.ads then .ok (.sym (.theta name)) else .error .ParameterError

/-- The free-site expression of one site.
Models: `scaks/solvers/mean_field_solver.py` 643-650. -/
def freeSiteSym (o : MFOwner K) (cls : Dict Str (List Str)) (s : Str) : Py (SymExpr K) := do
  let total ← dictGet o.totals s
  let sps ← dictGet cls s
  let es ← sps.mapM (extractAds (K := K) o.net)
  pure (es.foldl .sub (.num total))

/-- `get_data_symbols`. The adsorbates were classified when the solver was made.
Models: `scaks/solvers/mean_field_solver.py` 622-673. -/
def getDataSymbols (s : SymSolver K) : Py (SymSolver K) := do
  let cls ← classifyAds s.o.net
  let free ← s.o.net.sites.mapM (freeSiteSym s.o cls)
  pure { s with free := some free }

/-- `get_data`.
Models: `scaks/solvers/mean_field_solver.py` 167-184. -/
def getDataOf (s : SymSolver K) : Py (SymSolver K) := do
  let d ← getData s.o
  pure { s with data := some d }

/-- `_extract_symbol` for the type of a formula.
Models: `scaks/solvers/mean_field_solver.py` 675-720, 811-823. -/
def extractOf (n : Network) (free : List (SymExpr K)) (f : Formula) : Py (SymExpr K) :=
  match f.type with
  | .gas => if f.speciesSite ∈ n.gas then .ok (.sym (.p f.speciesSite)) else .error .ParameterError
  | .liquid => if f.speciesSite ∈ n.liq then .ok (.sym (.c f.speciesSite)) else .error .ParameterError
  | .site =>
    if f.speciesSite ∈ n.sites then
      match free[n.sites.idxOf f.speciesSite]? with
      | some e => .ok e
      | none => .error .IndexError
    else .error .ParameterError
  | .adsorbate => extractAds n f.speciesSite

/-- One of the two rate constants, `kB*T/h*E**(-G/(kB*T))`.
Models: `scaks/solvers/mean_field_solver.py` 769, 772. -/
def kSym (g : SymExpr K) : SymExpr K :=
  .mul (.div (.mul (.sym .kB) (.sym .T)) (.sym .h)) (.exp (.div (.sub (.num 0) g) (.mul (.sym .kB) (.sym .T))))

/-- `get_rate_constant_syms`, for one reaction.
Models: `scaks/solvers/mean_field_solver.py` 755-774. -/
def kfSym (i : Nat) : SymExpr K := kSym (.sym (.ga i))

/-- The reverse rate constant; the barrier is the forward one minus the reaction energy.
Models: `scaks/solvers/mean_field_solver.py` 766, 771-772. -/
def krSym (i : Nat) : SymExpr K := kSym (.sub (.sym (.ga i)) (.sym (.dg i)))

/-- `get_equilibrium_constant_syms`. Without symbols the attribute `_Ga_sym` is missing.
Models: `scaks/solvers/mean_field_solver.py` 737-753. -/
def equilibriumSyms (s : SymSolver K) : Py (List (SymExpr K)) :=
  if s.free.isNone then .error .AttributeError
  else .ok ((List.range s.o.rxns.length).map fun i => .div (kfSym i) (krSym i))

/-- The product for one state.
Models: `scaks/solvers/mean_field_solver.py` 800-825. -/
def stateSym (n : Network) (free : List (SymExpr K)) (k : SymExpr K) : List Formula → Py (SymExpr K)
  | [] => .ok k
  | f :: fs => do
    let e ← extractOf n free f
    stateSym n free (.mul k (.pow e f.stoich)) fs

/-- `get_elementary_rate_sym`. Without symbols the attribute `_Ga_sym` is missing.
Models: `scaks/solvers/mean_field_solver.py` 776-828. -/
def rateSym (s : SymSolver K) (rxn : Str) : Py (SymExpr K × SymExpr K) :=
  if rxn ∉ s.o.rxns then .error .ValueError
  else match s.free with
    | none => .error .AttributeError
    | some free => do
      let states ← eqnFormulas rxn
      match states.head?, states.getLast? with
      | some is, some fs => do
        let rf ← stateSym s.o.net free (kfSym (s.o.rxns.idxOf rxn)) is
        let rr ← stateSym s.o.net free (krSym (s.o.rxns.idxOf rxn)) fs
        pure (rf, rr)
      | _, _ => .error .IndexError

/-- `dict.setdefault(symbol, value)`.
Models: `scaks/solvers/mean_field_solver.py` 956, 960, 970, 981. -/
def symSetDefault (d : Dict Symb K) (k : Symb) (v : K) : Dict Symb K :=
  match get? d k with
  | some _ => d
  | none => Dict.set d k v

/-- `setdefault` over two sequences in parallel.
Models: `scaks/solvers/mean_field_solver.py` 955-960, 969-970, 980-981. -/
def zipDict (ks : List Symb) (vs : List K) : Dict Symb K :=
  (ks.zip vs).foldl (fun d x => symSetDefault d x.1 x.2) []

/-- `merge_two_dicts`: entries of the second replace those of the first.
Models: `scaks/compatutil.py` 39-46. -/
def mergeDicts (a b : Dict Symb K) : Dict Symb K := b.foldl (fun d x => Dict.set d x.1 x.2) a

/-- `relative_energies[key]`.
Models: `scaks/solvers/mean_field_solver.py` 956, 960. -/
def relKey (l : Option (List K)) : Py (List K) :=
  match l with
  | some l => .ok l
  | none => .error .KeyError

/-- `_get_p_subs_dict` and `_get_c_subs_dict`. The second looks up the tuple of all names in place of
a name, which is no key.
Models: `scaks/solvers/mean_field_solver.py` 974-994. -/
def dataSubs (s : SymSolver K) : Py (Dict Symb K) :=
  match s.data with
  | none => .error .AttributeError
  | some (p, _) => do
    let ps ← s.o.net.gas.mapM (dictGet p)
    if s.o.net.liq ≠ [] then .error .KeyError
    else pure (zipDict (s.o.net.gas.map .p) ps)

/-- `get_subs_dict`; the empty tuple counts as no coverages.
Models: `scaks/solvers/mean_field_solver.py` 858-896, 949-972. -/
def getSubsDict (s : SymSolver K) (cvgs : List K) : Py (Dict Symb K) := do
  if s.free.isNone then .error .AttributeError
  let gaf ← relKey s.gaf
  let dg ← relKey s.dg
  let ps ← dataSubs s
  let g := mergeDicts (zipDict ((List.range s.o.rxns.length).map .ga) gaf) (zipDict ((List.range s.o.rxns.length).map .dg) dg)
  let theta := zipDict (s.o.net.ads.map .theta) cvgs
  let consts := zipDict [.kB, .h, .T] [s.kB, s.h, s.T]
  pure (mergeDicts (mergeDicts (mergeDicts g theta) consts) ps)

/-- `get_rate_constants_by_sym`.
Models: `scaks/solvers/mean_field_solver.py` 898-918. -/
def rateConstantsBySym (ex : K → K) (s : SymSolver K) : Py (List K × List K) := do
  if s.free.isNone then .error .AttributeError
  let subs ← getSubsDict s []
  let kfs ← (List.range s.o.rxns.length).mapM fun i => evalSym ex subs (kfSym i)
  let krs ← (List.range s.o.rxns.length).mapM fun i => evalSym ex subs (krSym i)
  pure (kfs, krs)

/-- `get_rates_by_sym`; the archive is left out.
Models: `scaks/solvers/mean_field_solver.py` 830-856, 920-947. -/
def ratesBySym (ex : K → K) (s : SymSolver K) (cvgs : List K) : Py (List K × List K) := do
  let es ← s.o.rxns.mapM (rateSym s)
  let subs ← getSubsDict s cvgs
  let rfs ← es.mapM fun e => evalSym ex subs e.1
  let rrs ← es.mapM fun e => evalSym ex subs e.2
  pure (rfs, rrs)

/-- `get_net_rates_by_sym`; the archive is left out.
Models: `scaks/solvers/mean_field_solver.py` 996-1032. -/
def netRatesBySym (ex : K → K) (s : SymSolver K) (cvgs : List K) : Py (List K) := do
  let es ← s.o.rxns.mapM (rateSym s)
  let subs ← getSubsDict s cvgs
  es.mapM fun e => evalSym ex subs (.sub e.1 e.2)

/-- A row of expressions times a matrix of numbers.
Models: `scaks/solvers/mean_field_solver.py` 1045. -/
def symRowTimes (ncols : Nat) : List (SymExpr K) → List (List K) → List (SymExpr K)
  | x :: v, row :: M => List.zipWith (fun r s => .add (.mul x (.num r)) s) row (symRowTimes ncols v M)
  | _, _ => List.replicate ncols (.num 0)

/-- `get_tof_by_sym`; log output is left out.
Models: `scaks/solvers/mean_field_solver.py` 1034-1067. -/
def tofBySym (ex : K → K) (s : SymSolver K) (cvgs : List K) : Py (List K) := do
  let m ← s.o.net.stoichMatrices
  let es ← s.o.rxns.mapM (rateSym s)
  let ts := symRowTimes s.o.net.reaproCols.length (es.map fun e => .sub e.1 e.2)
    (m.2.map fun row => row.map fun (x : Int) => ((-x : Int) : K))
  let subs ← getSubsDict s cvgs
  ts.mapM (evalSym ex subs)

/-- `get_elementary_dtheta_dt_sym`. The number of the formula found is read but not used.
Models: `scaks/solvers/steady_state_solver.py` 503-553. -/
def elementaryDthetaSym (s : SymSolver K) (a rxn : Str) : Py (Option (SymExpr K)) :=
  if a ∉ s.o.net.ads then .error .ParameterError
  else if rxn ∉ s.o.rxns then .error .ParameterError
  else do
    let states ← eqnFormulas rxn
    match findAds a states with
    | none => pure none
    | some (i, _) =>
      let (rf, rr) ← rateSym s rxn
      if i = 0 then pure (some (.add (.sub (.num 0) rf) rr)) else pure (some (.sub rf rr))

/-- `get_adsorbate_dtheta_dt_sym`.
Models: `scaks/solvers/steady_state_solver.py` 555-575. -/
def adsorbateDthetaSym (s : SymSolver K) (a : Str) : Py (SymExpr K) := do
  let l ← s.o.rxns.mapM (elementaryDthetaSym s a)
  pure (l.foldl (fun t x => match x with | none => t | some e => .add t e) (.num 0))

/-- `steady_state_function_by_sym`.
Models: `scaks/solvers/steady_state_solver.py` 577-617. -/
def steadyBySym (ex : K → K) (s : SymSolver K) (cvgs : List K) : Py (List K) := do
  let es ← s.o.net.ads.mapM (adsorbateDthetaSym s)
  let subs ← getSubsDict s cvgs
  es.mapM (evalSym ex subs)

/-- The assignment `m[i][j] = e`.
Models: `scaks/solvers/steady_state_solver.py` 636. -/
def setEntry {A : Type} (m : List (List A)) (i j : Nat) (e : A) : Py (List (List A)) :=
  match m[i]? with
  | none => .error .IndexError
  | some row => if j < row.length then .ok (m.set i (row.set j e)) else .error .IndexError

/-- `analytical_jacobian_sym`: the matrix is allocated with two rows, each as long as the number of
equations.
Models: `scaks/solvers/steady_state_solver.py` 619-638. -/
def jacobianSym (s : SymSolver K) : Py (List (List (SymExpr K))) := do
  let es ← s.o.net.ads.mapM (adsorbateDthetaSym s)
  let m0 : List (List (SymExpr K)) := [List.replicate es.length (.num 0), List.replicate es.length (.num 0)]
  es.zipIdx.foldlM (fun m ei => s.o.net.ads.zipIdx.foldlM (fun m aj => do
    let t ← extractAds (K := K) s.o.net aj.1
    match t with
    | .sym t => setEntry m ei.2 aj.2 (ei.1.deriv t)
    | _ => .error .ValueError) m) m0

/-- `analytical_jacobian_by_sym`: both dimensions are taken to be the number of rows.
Models: `scaks/solvers/steady_state_solver.py` 640-664. -/
def jacobianBySym (ex : K → K) (s : SymSolver K) (cvgs : List K) : Py (List (List K)) := do
  let subs ← getSubsDict s cvgs
  let m ← jacobianSym s
  (List.range m.length).mapM fun i => (List.range m.length).mapM fun j =>
    match m[i]? with
    | none => .error .IndexError
    | some row => match row[j]? with
      | none => .error .IndexError
      | some e => evalSym ex subs e

end
end Verif
