import Verif.Model.Rounding
/-
The energies of reactions with numbers of finite precision. The parsers compute with Python's floats; every operation gives
the exact result, rounded. `Verif/Model/Energy.lean` takes these operations to be exact; here they are a parameter.
Overflow and numbers too small for full precision are not modelled.
-/
namespace Verif
open Dict

/-- The loop of `_get_state_energy`.
Models: `scaks/parsers/parser_base.py` 300-314. -/
noncomputable def rdStateEnergyFrom (A : Arith) (E : Dict Str ℝ) : List Formula → ℝ → Py ℝ
  | [], acc => .ok acc
  | f :: fs, acc => do
    let e ← dictGet E (if '*' ∉ f.speciesSite then f.speciesSite else '*' :: '_' :: f.site)
    rdStateEnergyFrom A E fs (A.add acc (A.mul (f.stoich : ℝ) e))

/-- `_get_state_energy`.
Models: `scaks/parsers/parser_base.py` 281-315. -/
noncomputable def rdStateEnergy (A : Arith) (E : Dict Str ℝ) (fs : List Formula) : Py ℝ := rdStateEnergyFrom A E fs 0

/-- `_get_single_relative_energies`, given that absolute energies have been read. The larger of two numbers is one of them
and is not rounded.
Models: `scaks/parsers/parser_base.py` 340-367. -/
noncomputable def rdSingleRelative (A : Arith) (E : Dict Str ℝ) (rxn : Str) : Py (Rel1 ℝ) := do
  let states ← eqnFormulas rxn
  match states.head?, states.getLast? with
  | some is, some fs =>
    let gis ← rdStateEnergy A E is
    let gfs ← rdStateEnergy A E fs
    let gts ←
      if states.length = 2 then pure (max gis gfs)
      else if states.length = 3 then
        match states[1]? with
        | some ts => rdStateEnergy A E ts
        | none => .error .IndexError
      else pure 0
    pure ⟨A.sub gts gis, A.sub gts gfs, A.sub gfs gis⟩
  | _, _ => .error .IndexError

/-- `_get_relative_from_absolute`, given that absolute energies have been read.
Models: `scaks/parsers/parser_base.py` 370-386. -/
noncomputable def rdRelative (A : Arith) (E : Dict Str ℝ) (rxns : List Str) : Py (Rel ℝ) := do
  let l ← rxns.mapM (rdSingleRelative A E)
  pure ⟨l.map (·.gaf), l.map (·.gar), l.map (·.dg)⟩

/-- `__get_relative_energies` of the parser of relative energies.
Models: `scaks/parsers/relative_energy_parser.py` 42-69. -/
noncomputable def rdRelFromData (A : Arith) (d : RelData ℝ) : Py (Rel ℝ) :=
  match d.ga, d.dg with
  | some ga, some dg =>
    let gafs := (ga.zip dg).map fun p => fixBarrier p.1 p.2
    let dgs := (ga.zip dg).map fun p => p.2
    .ok ⟨gafs, (gafs.zip dgs).map fun p => A.sub p.1 p.2, dgs⟩
  | _, _ => .error .KeyError

/-- The energy change of one state.
Models: `scaks/correctors/thermodynamic_corrector.py` 301-303. -/
noncomputable def rdStateDelta (A : Arith) (corr : Str → Py ℝ) : List Formula → ℝ → Py ℝ
  | [], acc => .ok acc
  | f :: fs, acc => do
    let c ← corr f.text
    rdStateDelta A corr fs (A.add acc c)

/-- `__change_relative_energies` for one reaction.
Models: `scaks/correctors/thermodynamic_corrector.py` 308-348. -/
noncomputable def rdChangeRel (A : Arith) (r : Rel1 ℝ) (deltas : List ℝ) : Rel1 ℝ :=
  match deltas with
  | [dis, dfs] =>
    let eis := A.add 0 dis
    let efs := A.add (A.add 0 r.dg) dfs
    let ets := max eis efs
    ⟨A.sub ets eis, A.sub ets efs, A.sub efs eis⟩
  | [dis, dts, dfs] => ⟨A.add r.gaf (A.sub dts dis), A.add r.gar (A.sub dts dfs), A.add r.dg (A.sub dfs dis)⟩
  | _ => r

/-- One step of the loop of `correct_relative_energies`.
Models: `scaks/correctors/thermodynamic_corrector.py` 263-273, 289-306. -/
noncomputable def rdCorrectOne (A : Arith) (corr : Str → Py ℝ) (states : List (List Formula)) (i : Nat) (r : Rel ℝ) : Py (Rel ℝ) := do
  let v ← r.at? i
  let deltas ← states.mapM fun fs => rdStateDelta A corr fs 0
  pure (r.setAt i (rdChangeRel A v deltas))

/-- The loop of `correct_relative_energies` over the reactions from index `i` on.
Models: `scaks/correctors/thermodynamic_corrector.py` 263-287. -/
noncomputable def rdCorrectFrom (A : Arith) (corr : Str → Py ℝ) : List (List (List Formula)) → Nat → Rel ℝ → Py (Rel ℝ)
  | [], _, r => .ok r
  | states :: rest, i, r => do
    let r' ← rdCorrectOne A corr states i r
    rdCorrectFrom A corr rest (i + 1) r'

end Verif
