import Verif.Model.Rates
import Verif.Model.Network
/-
`scaks/solvers/mean_field_solver.py` and the coverage equations of
`scaks/solvers/steady_state_solver.py`. Numbers are elements of a field `K`.

The code builds rate expressions as text and runs `exec` on them. The model keeps the
expressions as data: a term is the list of its factors in the order in which the text names
them, and running the text is evaluating the data. Species names come from `ChemFormula` and
consist of word characters, `*` and `-`, so they contain no quote or space that could change the
reading of the text.
-/
namespace Verif
open Dict

/-- What the mean-field solver reads from the model: reaction texts, the parsed network, the
`total` of each site, the `pressure` of each gas, the `concentration` of each liquid.
Models: `scaks/solvers/mean_field_solver.py` 38-52, 167-184. -/
structure MFOwner (K : Type) where
  rxns : List Str
  net : Network
  totals : Dict Str K
  pressures : Dict Str K
  concs : Dict Str K

/-- `dict.setdefault(k, v)` used as a statement.
Models: `scaks/solvers/mean_field_solver.py` 122, 145, 154, 175, 182. -/
def setDefault {ν : Type} (d : Dict Str ν) (k : Str) (v : ν) : Dict Str ν :=
  match get? d k with
  | some _ => d
  | none => Dict.set d k v

/-- The site name of an adsorbate: `"*_{}".format(ChemFormula(name).site())`.
Models: `scaks/solvers/mean_field_solver.py` 125-126. -/
def siteNameOf (a : Str) : Py Str := do
  let f ← chemFormula a
  pure ('*' :: '_' :: f.site)

/-- The loop appending each adsorbate to the list of its site.
Models: `scaks/solvers/mean_field_solver.py` 124-127. -/
def classifyFrom : Dict Str (List Str) → List Str → Py (Dict Str (List Str))
  | d, [] => .ok d
  | d, a :: as => do
    let s ← siteNameOf a
    let l ← dictGet d s
    classifyFrom (Dict.set d s (l ++ [a])) as

/-- `__classify_adsorbates`.
Models: `scaks/solvers/mean_field_solver.py` 116-129. -/
def classifyAds (n : Network) : Py (Dict Str (List Str)) :=
  classifyFrom (n.sites.foldl (fun d s => setDefault d s []) []) n.ads

/-- The loop entering the adsorbate coverages.
Models: `scaks/solvers/mean_field_solver.py` 141-145. -/
def adsCoverages {K : Type} (names : List Str) (cvgs : List K) : Dict Str K → List Str → Py (Dict Str K)
  | d, [] => .ok d
  | d, a :: as => do
    let c ← match cvgs[names.idxOf a]? with
      | some c => .ok c
      | none => .error .IndexError
    adsCoverages names cvgs (setDefault d a c) as

/-- The loop entering the free-site coverages.
Models: `scaks/solvers/mean_field_solver.py` 147-154. -/
def freeSites {K : Type} [Field K] (totals : Dict Str K) (cls : Dict Str (List Str)) :
    Dict Str K → List Str → Py (Dict Str K)
  | d, [] => .ok d
  | d, s :: ss => do
    let total ← dictGet totals s
    let sps ← dictGet cls s
    let cs ← sps.mapM (dictGet d)
    freeSites totals cls (setDefault d s (total - cs.sum)) ss

/-- `_cvg_tuple2dict`.
Models: `scaks/solvers/mean_field_solver.py` 131-156. -/
def cvgTuple2Dict {K : Type} [Field K] (o : MFOwner K) (cvgs : List K) : Py (Dict Str K) := do
  let cls ← classifyAds o.net
  let d ← adsCoverages o.net.ads cvgs [] o.net.ads
  freeSites o.totals cls d o.net.sites

/-- `_cvg_dict2tuple`.
Models: `scaks/solvers/mean_field_solver.py` 158-165. -/
def cvgDict2Tuple {K : Type} (o : MFOwner K) (d : Dict Str K) : Py (List K) :=
  o.net.ads.mapM (dictGet d)

/-- `get_data`: the pressure and concentration dictionaries of the solver.
Models: `scaks/solvers/mean_field_solver.py` 167-184. -/
def getData {K : Type} (o : MFOwner K) : Py (Dict Str K × Dict Str K) := do
  let p ← o.net.gas.mapM fun g => do pure (g, ← dictGet o.pressures g)
  let c ← o.net.liq.mapM fun g => do pure (g, ← dictGet o.concs g)
  pure (p, c)

/-- The dictionaries a factor is looked up in.
Models: `scaks/solvers/mean_field_solver.py` 334-356. -/
inductive Var | theta | p | c
  deriving DecidableEq, Repr

/-- `*theta['name']**pow`, `*p[...]`, `*c[...]`; the power is not written when it is 1.
Models: `scaks/solvers/mean_field_solver.py` 334-356. -/
structure Factor where
  var : Var
  name : Str
  pow : Nat
  deriving DecidableEq, Repr

/-- A product `coef*kf[idx]*factors` (`kr` if not `fwd`); a coefficient 1 is not written.
Models: `scaks/solvers/mean_field_solver.py` 326-358, `scaks/solvers/steady_state_solver.py` 153-169. -/
structure Term where
  coef : Nat
  fwd : Bool
  idx : Nat
  factors : List Factor
  deriving DecidableEq, Repr

/-- The factor of one formula. The type `site` does not occur in the last branch, as such names
contain a star.
Models: `scaks/solvers/mean_field_solver.py` 330-356. -/
def factorOf (f : Formula) : Factor :=
  if '*' ∈ f.speciesSite then ⟨.theta, f.speciesSite, f.stoich⟩
  else match f.type with
    | .gas => ⟨.p, f.speciesSite, f.stoich⟩
    | .liquid => ⟨.c, f.speciesSite, f.stoich⟩
    | _ => ⟨.theta, f.speciesSite, f.stoich⟩

/-- `get_elementary_rate_expression`.
Models: `scaks/solvers/mean_field_solver.py` 309-369. -/
def rateTerms {K : Type} (o : MFOwner K) (rxn : Str) : Py (Term × Term) :=
  if rxn ∉ o.rxns then .error .ValueError
  else match o.net.rxns[o.rxns.idxOf rxn]? with
    | none => .error .IndexError
    | some states =>
      match states.head?, states.getLast? with
      | some is, some fs =>
        .ok (⟨1, true, o.rxns.idxOf rxn, is.map factorOf⟩, ⟨1, false, o.rxns.idxOf rxn, fs.map factorOf⟩)
      | _, _ => .error .IndexError

/-- The names visible to the executed text.
Models: `scaks/solvers/mean_field_solver.py` 402-414, `scaks/solvers/steady_state_solver.py` 236-249. -/
structure Env (K : Type) where
  kf : List K
  kr : List K
  theta : Dict Str K
  p : Dict Str K
  c : Dict Str K

/-- Evaluation of one factor.
Models: `scaks/solvers/mean_field_solver.py` 420-422 (`exec`). -/
def evalFactor {K : Type} [Field K] (env : Env K) (f : Factor) : Py K := do
  let x ← match f.var with
    | .theta => dictGet env.theta f.name
    | .p => dictGet env.p f.name
    | .c => dictGet env.c f.name
  pure (x ^ f.pow)

/-- Evaluation of one term.
Models: `scaks/solvers/mean_field_solver.py` 420-422 (`exec`). -/
def evalTerm {K : Type} [Field K] (env : Env K) (t : Term) : Py K := do
  let k ← match (if t.fwd then env.kf else env.kr)[t.idx]? with
    | some k => .ok k
    | none => .error .IndexError
  let xs ← t.factors.mapM (evalFactor env)
  pure ((t.coef : K) * k * xs.prod)

/-- The environment of the executed text.
Models: `scaks/solvers/mean_field_solver.py` 402-411. -/
def mkEnv {K : Type} [Field K] (o : MFOwner K) (k : List K × List K) (cvgs : List K) : Py (Env K) := do
  let theta ← cvgTuple2Dict o cvgs
  let d ← getData o
  pure ⟨k.1, k.2, theta, d.1, d.2⟩

/-- `get_rates` for given rate constants: first all forward assignments are run, then all reverse
ones.
Models: `scaks/solvers/mean_field_solver.py` 371-432. -/
def getRates {K : Type} [Field K] (o : MFOwner K) (k : List K × List K) (cvgs : List K) :
    Py (List K × List K) := do
  let env ← mkEnv o k cvgs
  let ts ← o.rxns.mapM (rateTerms o)
  let rfs ← ts.mapM fun t => evalTerm env t.1
  let rrs ← ts.mapM fun t => evalTerm env t.2
  pure (rfs, rrs)

/-- `get_net_rates`.
Models: `scaks/solvers/mean_field_solver.py` 434-459. -/
def getNetRates {K : Type} [Field K] (o : MFOwner K) (k : List K × List K) (cvgs : List K) :
    Py (List K) := do
  let r ← getRates o k cvgs
  pure (List.zipWith (· - ·) r.1 r.2)

/-- `get_reversibilities`; log and archive are left out.
Models: `scaks/solvers/mean_field_solver.py` 461-484. -/
def reversibilities {K : Type} [Field K] [DecidableEq K] (rfs rrs : List K) : Py (List K) :=
  if rfs.length ≠ rrs.length then .error .ValueError
  else (rfs.zip rrs).mapM fun x => if x.1 = 0 then .error .ZeroDivisionError else .ok (x.2 / x.1)

/-- A row vector times a matrix given by rows.
Models: `scaks/solvers/mean_field_solver.py` 536-537. -/
def rowTimes {K : Type} [Field K] (ncols : Nat) : List K → List (List K) → List K
  | x :: v, row :: M => List.zipWith (fun r s => x * r + s) row (rowTimes ncols v M)
  | _, _ => List.replicate ncols 0

/-- `get_tof` without a gas name: net rates times minus the gas and liquid matrix. The matrix
has one row per reaction and one column per gas and liquid.
Models: `scaks/solvers/mean_field_solver.py` 530-546. -/
def getTof {K : Type} [Field K] (o : MFOwner K) (k : List K × List K) (cvgs : List K) : Py (List K) := do
  let net ← getNetRates o k cvgs
  let m ← o.net.stoichMatrices
  pure (rowTimes o.net.reaproCols.length net (m.2.map fun row => row.map fun (x : Int) => ((-x : Int) : K)))

/-- `get_tof` with a gas name.
Models: `scaks/solvers/mean_field_solver.py` 547-556. -/
def getTofOf {K : Type} [Field K] (o : MFOwner K) (k : List K × List K) (cvgs : List K) (gas : Str) : Py K := do
  let l ← getTof o k cvgs
  if gas ∉ o.net.gas then .error .ParameterError
  else match l[o.net.gas.idxOf gas]? with
    | some x => .ok x
    | none => .error .IndexError

/-- The first state containing the adsorbate, with the first formula naming it. The code uses
`list.index` on the list of states; formulas are compared by identity, so the position found is
the position of the loop.
Models: `scaks/solvers/steady_state_solver.py` 135-147. -/
def findAds (a : Str) (states : List (List Formula)) : Option (Nat × Nat) :=
  match states with
  | [] => none
  | fs :: rest =>
    match fs.find? (·.speciesSite = a) with
    | some f => some (0, f.stoich)
    | none => (findAds a rest).map fun x => (x.1 + 1, x.2)

/-- `get_elementary_dtheta_dt_expression`: nothing if the adsorbate is not in the reaction, else
the increasing and the decreasing term. States read from text are not empty, so the loop
variables are bound.
Models: `scaks/solvers/steady_state_solver.py` 107-173. -/
def elementaryDtheta {K : Type} (o : MFOwner K) (a rxn : Str) : Py (Option (Term × Term)) :=
  if a ∉ o.net.ads then .error .ValueError
  else do
    let states ← eqnFormulas rxn
    match findAds a states with
    | none => pure none
    | some (i, n) =>
      let (f, r) ← rateTerms o rxn
      if i = 0 then pure (some ({ r with coef := n }, { f with coef := n }))
      else pure (some ({ f with coef := n }, { r with coef := n }))

/-- A sum of terms with signs, in the order of the text.
Models: `scaks/solvers/steady_state_solver.py` 172, 195. -/
abbrev Poly := List (Bool × Term)

/-- `get_adsorbate_dtheta_dt_expression`.
Models: `scaks/solvers/steady_state_solver.py` 175-199. -/
def adsorbateDtheta {K : Type} (o : MFOwner K) (a : Str) : Py Poly := do
  let l ← o.rxns.mapM (elementaryDtheta o a)
  pure (l.flatMap fun x => match x with
    | none => []
    | some (inc, dec) => [(true, inc), (false, dec)])

/-- Evaluation of a sum of terms.
Models: `scaks/solvers/steady_state_solver.py` 250-251 (`exec`). -/
def evalPoly {K : Type} [Field K] (env : Env K) (q : Poly) : Py K := do
  let xs ← q.mapM fun t => do
    let x ← evalTerm env t.2
    pure (if t.1 then x else -x)
  pure xs.sum

/-- `steady_state_function` for given rate constants; the texts cached in the solver are
recomputed, which gives the same texts. An empty right hand side is a syntax error, which cannot
occur for adsorbates of the network.
Models: `scaks/solvers/steady_state_solver.py` 201-254. -/
def steadyStateFunction {K : Type} [Field K] (o : MFOwner K) (k : List K × List K) (cvgs : List K) :
    Py (List K) := do
  let env ← mkEnv o k cvgs
  let qs ← o.net.ads.mapM (adsorbateDtheta o)
  qs.mapM (evalPoly env)

/-- The Boltzmann weight of a species.
Models: `scaks/solvers/mean_field_solver.py` 293-297, 302. -/
noncomputable def boltzmannWeight (E : Dict Str ℝ) (T : ℝ) (x : Str) : Py ℝ := do
  let e ← dictGet E x
  if kBeV * T = 0 then .error .ZeroDivisionError
  else pure (Real.exp (-e / (kBeV * T)))

/-- `boltzmann_coverages`; `E` is `none` if no absolute energies have been read (`get_data` does
not change that).
Models: `scaks/solvers/mean_field_solver.py` 270-307. -/
noncomputable def boltzmannCoverages (n : Network) (E : Option (Dict Str ℝ)) (T : ℝ) (inclEmpty : Bool) :
    Py (List ℝ) :=
  match E with
  | none => .error .IOError
  | some E => do
    let ws ← (if inclEmpty then n.ads ++ n.sites else n.ads).mapM (boltzmannWeight E T)
    let as ← n.ads.mapM (boltzmannWeight E T)
    pure (as.map (· / ws.sum))

end Verif
