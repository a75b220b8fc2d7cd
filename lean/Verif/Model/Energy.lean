import Verif.Model.Network
import Mathlib.Algebra.Order.Field.Basic
/-
Energies of reactions: `scaks/parsers/parser_base.py` 281-386,
`scaks/parsers/relative_energy_parser.py`, `scaks/parsers/absolute_energy_parser.py`,
`scaks/correctors/thermodynamic_corrector.py` 243-348.
Floats are exact numbers of an ordered field.
-/
namespace Verif
variable {K : Type} [Field K] [LinearOrder K] [IsStrictOrderedRing K]

/-- `d[k]` with `KeyError`.
Models: Python dictionary access, e.g. `scaks/parsers/parser_base.py` 309, 312. -/
def dictGet {ν : Type} (d : Dict Str ν) (k : Str) : Py ν :=
  match Dict.get? d k with
  | some v => .ok v
  | none => .error .KeyError

/-- The loop of `_get_state_energy`.
Models: `scaks/parsers/parser_base.py` 300-314. -/
def stateEnergyFrom (E : Dict Str K) : List Formula → K → Py K
  | [], acc => .ok acc
  | f :: fs, acc => do
    let e ← dictGet E (if '*' ∉ f.speciesSite then f.speciesSite else '*' :: '_' :: f.site)
    stateEnergyFrom E fs (acc + (f.stoich : K) * e)

/-- `_get_state_energy`.
Models: `scaks/parsers/parser_base.py` 281-315. -/
def stateEnergy (E : Dict Str K) (fs : List Formula) : Py K := stateEnergyFrom E fs 0

/-- Relative energies of one reaction: forward barrier, reverse barrier, reaction energy.
Models: `scaks/parsers/parser_base.py` 328-332, 367. -/
structure Rel1 (K : Type) where
  gaf : K
  gar : K
  dg : K
  deriving DecidableEq, Repr

/-- `_get_single_relative_energies`, given that absolute energies have been read.
Models: `scaks/parsers/parser_base.py` 340-367. -/
def singleRelative (E : Dict Str K) (rxn : Str) : Py (Rel1 K) := do
  let states ← eqnFormulas rxn
  match states.head?, states.getLast? with
  | some is, some fs =>
    let gis ← stateEnergy E is
    let gfs ← stateEnergy E fs
    let gts ←
      if states.length = 2 then pure (max gis gfs)
      else if states.length = 3 then
        match states[1]? with
        | some ts => stateEnergy E ts
        | none => .error .IndexError
      else pure 0
    pure ⟨gts - gis, gts - gfs, gfs - gis⟩
  | _, _ => .error .IndexError

/-- The relative energies of a model: three lists.
Models: `scaks/parsers/parser_base.py` 383, `scaks/parsers/relative_energy_parser.py` 62-66. -/
structure Rel (K : Type) where
  gaf : List K
  gar : List K
  dg : List K
  deriving DecidableEq, Repr

/-- `_get_relative_from_absolute`; without absolute energies `AttributeError`.
Models: `scaks/parsers/parser_base.py` 336-338, 370-386. -/
def relativeFromAbsolute (E : Option (Dict Str K)) (rxns : List Str) : Py (Rel K) := do
  let l ← rxns.mapM fun r =>
    match E with
    | none => .error .AttributeError
    | some E => singleRelative E r
  pure ⟨l.map (·.gaf), l.map (·.gar), l.map (·.dg)⟩

/-- The energy attributes of the owner that the parsers set.
Models: `scaks/parsers/absolute_energy_parser.py` 33-43,
`scaks/parsers/relative_energy_parser.py` 95-98, `scaks/models/kinetic_model.py` 169-172. -/
structure EnergyState (K : Type) where
  absolute : Option (Dict Str K) := none
  relative : Option (Rel K) := none
  deriving DecidableEq, Repr

/-- `AbsoluteEnergyParser.parse_data` for a file that defines `absolute_energies` (or not). The
absolute energies are already stored when computing the relative ones raises.
Models: `scaks/parsers/absolute_energy_parser.py` 22-45. -/
def parseAbsolute (rxns : List Str) (file : Option (Dict Str K)) (o : EnergyState K) :
    EnergyState K × Py Unit :=
  match file with
  | none => (o, .error .KeyError)
  | some E =>
    let o1 := { o with absolute := some E }
    match relativeFromAbsolute o1.absolute rxns with
    | .error e => (o1, .error e)
    | .ok r => ({ o1 with relative := some r }, .ok ())

/-- The entries of a relative energy data file or dictionary that are read.
Models: `scaks/parsers/relative_energy_parser.py` 32-37, 50. -/
structure RelData (K : Type) where
  ga : Option (List K)
  dg : Option (List K)
  deriving DecidableEq, Repr

/-- `__chk_data_validity`.
Models: `scaks/parsers/relative_energy_parser.py` 27-40. -/
def checkRelData (n : Nat) (d : RelData K) : Py Unit :=
  if (match d.ga with | some l => l.length != n | none => false) then .error .ValueError
  else if (match d.dg with | some l => l.length != n | none => false) then .error .ValueError
  else .ok ()

/-- The loop body of `__get_relative_energies`.
Models: `scaks/parsers/relative_energy_parser.py` 57-58. -/
def fixBarrier (gaf dg : K) : K :=
  if |gaf - 0| < 1 / 10 ^ 10 ∧ dg > 0 then dg else gaf

/-- `__get_relative_energies`.
Models: `scaks/parsers/relative_energy_parser.py` 42-69. -/
def relFromData (d : RelData K) : Py (Rel K) :=
  match d.ga, d.dg with
  | some ga, some dg =>
    let gafs := (ga.zip dg).map fun p => fixBarrier p.1 p.2
    let dgs := (ga.zip dg).map fun p => p.2
    .ok ⟨gafs, (gafs.zip dgs).map fun p => p.1 - p.2, dgs⟩
  | _, _ => .error .KeyError

/-- `RelativeEnergyParser.parse_data`: an existing file wins over the argument.
Models: `scaks/parsers/relative_energy_parser.py` 71-100. -/
def parseRelative (n : Nat) (file arg : Option (RelData K)) (o : EnergyState K) :
    EnergyState K × Py Unit :=
  match file.or arg with
  | none => (o, .error .IOError)
  | some d =>
    match checkRelData n d with
    | .error e => (o, .error e)
    | .ok () =>
      match relFromData d with
      | .error e => (o, .error e)
      | .ok r => ({ o with relative := some r }, .ok ())

/-! ### corrections -/

/-- The energy change of one state: the correction of each formula text, added up.
Models: `scaks/correctors/thermodynamic_corrector.py` 301-303. -/
def stateDelta (corr : Str → Py K) : List Formula → K → Py K
  | [], acc => .ok acc
  | f :: fs, acc => do
    let c ← corr f.text
    stateDelta corr fs (acc + c)

/-- `__change_relative_energies` for one reaction; other numbers of states change nothing.
Models: `scaks/correctors/thermodynamic_corrector.py` 308-348. -/
def changeRel (r : Rel1 K) (deltas : List K) : Rel1 K :=
  match deltas with
  | [dis, dfs] =>
    let eis := 0 + dis
    let efs := (0 + r.dg) + dfs
    let ets := max eis efs
    ⟨ets - eis, ets - efs, efs - eis⟩
  | [dis, dts, dfs] => ⟨r.gaf + (dts - dis), r.gar + (dts - dfs), r.dg + (dfs - dis)⟩
  | _ => r

/-- `relative_energies[...][idx]` for the three lists.
Models: `scaks/correctors/thermodynamic_corrector.py` 265-267, 320-322. -/
def Rel.at? (r : Rel K) (i : Nat) : Py (Rel1 K) :=
  match r.gaf[i]?, r.gar[i]?, r.dg[i]? with
  | some a, some b, some c => .ok ⟨a, b, c⟩
  | _, _, _ => .error .IndexError

/-- `relative_energies[...][idx] = ...` for the three lists.
Models: `scaks/correctors/thermodynamic_corrector.py` 346-348. -/
def Rel.setAt (r : Rel K) (i : Nat) (v : Rel1 K) : Rel K :=
  ⟨r.gaf.set i v.gaf, r.gar.set i v.gar, r.dg.set i v.dg⟩

/-- One step of the loop of `correct_relative_energies`.
Models: `scaks/correctors/thermodynamic_corrector.py` 263-273, 289-306. -/
def correctOne (corr : Str → Py K) (states : List (List Formula)) (i : Nat) (r : Rel K) : Py (Rel K) := do
  let v ← r.at? i
  let deltas ← states.mapM fun fs => stateDelta corr fs 0
  pure (r.setAt i (changeRel v deltas))

/-- The loop of `correct_relative_energies` over the reactions from index `i` on. The code works
in place: when a correction raises, earlier reactions are already changed; here the partial
result is dropped.
Models: `scaks/correctors/thermodynamic_corrector.py` 263-287. -/
def correctFrom (corr : Str → Py K) : List (List (List Formula)) → Nat → Rel K → Py (Rel K)
  | [], _, r => .ok r
  | states :: rest, i, r => do
    let r' ← correctOne corr states i r
    correctFrom corr rest (i + 1) r'

/-- `correct_relative_energies`; the reactions are those of the owner.
Models: `scaks/correctors/thermodynamic_corrector.py` 243-287. -/
def correctAll (corr : Str → Py K) (n : Network) (r : Rel K) : Py (Rel K) :=
  correctFrom corr n.rxns 0 r

end Verif
