import Verif.Model.Thermo
/-
`scaks/solvers/solver_base.py` 26-358 and `MeanFieldSolver.get_rate_constants`
(`scaks/solvers/mean_field_solver.py` 186-238). Floats are real numbers.
-/
namespace Verif
open Classical

/-- `get_kTST`; both branches of the code compute the same formula in different precision.
Temperature zero is a division by zero.
Models: `scaks/solvers/solver_base.py` 26-45. -/
noncomputable def kTST (Ga T : ℝ) : Py ℝ :=
  if T = 0 then .error .ZeroDivisionError
  else .ok (kBeV * T / heV * Real.exp (-Ga / (kBeV * T)))

/-- `get_kCT`.
Models: `scaks/solvers/solver_base.py` 47-90. -/
noncomputable def kCT (Ea Auc act m T p f : ℝ) : Py ℝ :=
  if act > 1 then .error .ParameterError
  else if f > 1 then .error .ParameterError
  else if T = 0 then .error .ZeroDivisionError
  else
    let S := f * act * Real.exp (-Ea / (kBeV * T))
    if 2 * Real.pi * m * kBJ * T < 0 then .error .ValueError
    else if 2 * Real.pi * m * kBJ * T = 0 then .error .ZeroDivisionError
    else .ok (S * (p * Auc) / Real.sqrt (2 * Real.pi * m * kBJ * T))

/-- `get_TST_barrier_from_CT`; the logarithm of a number that is not positive raises.
Models: `scaks/solvers/solver_base.py` 92-105. -/
noncomputable def barrierFromCT (k T : ℝ) : Py ℝ :=
  if T = 0 then .error .ZeroDivisionError
  else if k * heV / (kBeV * T) ≤ 0 then .error .ValueError
  else .ok (-Real.log (k * heV / (kBeV * T)) * (kBeV * T))

/-- The `relative_energies` dictionary handed to the solver; each key may be missing.
Models: `scaks/solvers/solver_base.py` 354-356. -/
structure RelDict (K : Type) where
  gaf : Option (List K)
  gar : Option (List K)
  dg : Option (List K)

/-- `relative_energies[key][idx]`.
Models: `scaks/solvers/solver_base.py` 354-356. -/
def entryAt {K : Type} (l : Option (List K)) (i : Nat) : Py K :=
  match l with
  | none => .error .KeyError
  | some l => match l[i]? with
    | none => .error .IndexError
    | some x => .ok x

/-- `_get_relative_energies`: the entry at the first position of the expression in the list of
reactions.
Models: `scaks/solvers/solver_base.py` 346-358. -/
def relOf {K : Type} (rxns : List Str) (rel : RelDict K) (rxn : Str) : Py (Rel1 K) :=
  if rxn ∉ rxns then .error .ValueError
  else do
    let a ← entryAt rel.gaf (rxns.idxOf rxn)
    let b ← entryAt rel.gar (rxns.idxOf rxn)
    let c ← entryAt rel.dg (rxns.idxOf rxn)
    pure ⟨a, b, c⟩

/-- The attributes of the owner used for rate constants. `pressures` are those of
`species_definitions`; `corrector` tells whether a corrector object has been made.
Models: `scaks/solvers/solver_base.py` 138, 152, 202, 216-223. -/
structure RateOwner where
  rxns : List Str
  T : ℝ
  pressures : Dict Str ℝ
  area : ℝ
  actRatio : ℝ
  corrector : Bool

/-- The product of the pressures of gases, each looked up by its full text.
Models: `scaks/solvers/solver_base.py` 152-157, 161-163. -/
noncomputable def pressureProduct (P : Dict Str ℝ) (gases : List Formula) : Py ℝ := do
  let ps ← gases.mapM fun g => dictGet P g.text
  match ps with
  | [] => pure 1
  | p :: ps => pure (ps.foldl (· * ·) p)

/-- `get_rxn_rates_TST`.
Models: `scaks/solvers/solver_base.py` 107-170. -/
noncomputable def ratesTST (o : RateOwner) (rel : RelDict ℝ) (inclP : Bool) (rxn : Str) : Py (ℝ × ℝ) := do
  let v ← relOf o.rxns rel rxn
  let rf ← kTST v.gaf o.T
  let rr ← kTST v.gar o.T
  if inclP then do
    let ads ← adsorptionGases rxn
    let p ← pressureProduct o.pressures ads
    let des ← desorptionGases rxn
    let p' ← pressureProduct o.pressures des
    pure (p * rf, p' * rr)
  else pure (rf, rr)

/-- The pressure in Pascal used by collision theory.
Models: `scaks/solvers/solver_base.py` 234-237, 290-293. -/
noncomputable def pressureCT (o : RateOwner) (inclP : Bool) (name : Str) : Py ℝ :=
  if inclP then do
    let p ← dictGet o.pressures name
    pure (P0 * p)
  else pure P0

/-- `get_rxn_rates_CT`. The mass passed to `entropy_correction` is the one it would compute
itself, so the model of that function is called without it.
Models: `scaks/solvers/solver_base.py` 172-344. -/
noncomputable def ratesCT (o : RateOwner) (rel : RelDict ℝ) (inclP : Bool) (rxn : Str) : Py (ℝ × ℝ) := do
  let v ← relOf o.rxns rel rxn
  let states ← eqnFormulas rxn
  match states.head?, states.getLast? with
  | some is, some fs =>
    if ¬ o.area > 0 then .error .AttributeError
    else if o.corrector = false then .error .SetupError
    else match is.find? (·.type = .gas) with
    | some f => do
      let m ← molecularMass f.species
      let p ← pressureCT o inclP f.text
      let rf ← kCT v.gaf o.area o.actRatio (amu * (m : ℝ)) o.T p 1
      let gafTST ← barrierFromCT rf o.T
      let corr ← entropyCorrection o.pressures o.T (some p) f.text
      let dG := v.dg - (f.stoich : ℝ) * corr
      let garTST := if gafTST - dG < 0 then 0 else gafTST - dG
      let rr ← kTST garTST o.T
      pure (rf, rr)
    | none =>
      match fs.find? (·.type = .gas) with
      | some f => do
        let p ← pressureCT o inclP f.text
        let _ ← molecularMass f.species
        let corr ← entropyCorrection o.pressures o.T (some p) f.text
        let rr ← kTST (v.gar - (f.stoich : ℝ) * corr) o.T
        let rf ← kTST v.gaf o.T
        pure (rf, rr)
      | none => do
        let rf ← kTST v.gaf o.T
        let rr ← kTST v.gar o.T
        pure (rf, rr)
  | _, _ => .error .IndexError

/-- The `rate_algo` setting.
Models: `scaks/solvers/mean_field_solver.py` 218-225. -/
inductive RateAlgo | TST | CT | other
  deriving DecidableEq

/-- `get_rate_constants` without the memo. The check `"Gaf" and "Gar" not in relative_energies`
only tests the second key.
Models: `scaks/solvers/mean_field_solver.py` 204-237. -/
noncomputable def rateConstants (o : RateOwner) (algo : RateAlgo) (rel : RelDict ℝ) :
    Py (List ℝ × List ℝ) :=
  if rel.gar.isNone then .error .ParameterError
  else do
    let l ← match algo with
      | .TST => o.rxns.mapM (ratesTST o rel false)
      | .CT => o.rxns.mapM (ratesCT o rel false)
      | .other => .error .ValueError
    pure (l.map (·.1), l.map (·.2))

end Verif
