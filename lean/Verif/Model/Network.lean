import Verif.Model.Rxn
import Verif.Py.Sort
/-
`scaks/parsers/parser_base.py` 35-183: parsing all reactions of a model, species lists and
stoichiometry matrices.
-/
namespace Verif

/-- What `parse_elementary_rxns` returns.
Models: `scaks/parsers/parser_base.py` 112-117. -/
structure Network where
  ads : List Str
  gas : List Str
  liq : List Str
  sites : List Str
  ts : List Str
  rxns : List (List (List Formula))
  deriving DecidableEq, Repr

/-- The branches of the classification of a formula.
Models: `scaks/parsers/parser_base.py` 84-95. -/
inductive Kind | gas | liquid | ts | ads
  deriving DecidableEq, Repr

/-- The `if`/`elif` chain classifying a formula; an empty site gets no class. The keys of
`get_sites_dict` of one formula are just its site.
Models: `scaks/parsers/parser_base.py` 81-95. -/
def classify (f : Formula) : Option Kind :=
  if ['g'] ∈ Dict.keys f.sites then some .gas
  else if ['l'] ∈ Dict.keys f.sites then some .liquid
  else if '-' ∈ f.species then some .ts
  else if '*' ∉ f.species then some .ads
  else none

/-- The names collected for one class, duplicates merged.
Models: `scaks/parsers/parser_base.py` 84-95, 104-109. -/
def namesOf (k : Kind) (fs : List Formula) : List Str :=
  sortedSet ((fs.filter fun f => classify f = some k).map (·.speciesSite))

/-- The site names collected, duplicates merged.
Models: `scaks/parsers/parser_base.py` 98-99, 108. -/
def siteNamesOf (fs : List Formula) : List Str :=
  sortedSet (fs.flatMap fun f =>
    ((Dict.keys f.sites).filter fun s => ¬ (s = ['g'] ∨ s = ['l'])).map fun s => '*' :: '_' :: s)

/-- One reaction: conservation check, then the formulas of all states.
Models: `scaks/parsers/parser_base.py` 65-77. -/
def parseRxn (s : Str) : Py (List (List Formula)) := do
  let _ ← checkConservation s
  eqnFormulas s

/-- `ParserBase.parse_elementary_rxns`. The argument of the method is ignored by the code, which
reads the reaction expressions of the owner; here they are the argument.
Models: `scaks/parsers/parser_base.py` 35-117. -/
def parseNetwork (rxns : List Str) : Py Network := do
  let l ← rxns.mapM parseRxn
  let fs := l.flatten.flatten
  pure { ads := namesOf .ads fs, gas := namesOf .gas fs, liq := namesOf .liquid fs,
         sites := siteNamesOf fs, ts := namesOf .ts fs, rxns := l }

/-- `matrix[i, j] += v` on one row.
Models: `scaks/parsers/parser_base.py` 159-160, 164-165, 174-175, 179-180. -/
def addAt (row : List Int) (j : Nat) (v : Int) : List Int := row.modify j (· + v)

/-- The loop over the formulas of one state: coefficients of the listed species are added to
the row with sign `sgn`.
Models: `scaks/parsers/parser_base.py` 153-165 (`sgn = 1`), 168-180 (`sgn = -1`). -/
def addState (names : List Str) (sgn : Int) (fs : List Formula) (row : List Int) : List Int :=
  fs.foldl (fun r f =>
    if f.speciesSite ∈ names then addAt r (names.idxOf f.speciesSite) (sgn * (f.stoich : Int)) else r)
    row

/-- One row of a stoichiometry matrix; the reaction must have a first and a last state.
Models: `scaks/parsers/parser_base.py` 145-146, 151-180. -/
def stoichRow (names : List Str) (states : List (List Formula)) : Py (List Int) :=
  match states.head?, states.getLast? with
  | some is, some fs =>
    .ok (addState names (-1) fs (addState names 1 is (List.replicate names.length 0)))
  | _, _ => .error .IndexError

/-- The names of the columns of the first matrix.
Models: `scaks/parsers/parser_base.py` 137. -/
def Network.siteCols (n : Network) : List Str := n.sites ++ n.ads

/-- The names of the columns of the second matrix.
Models: `scaks/parsers/parser_base.py` 140. -/
def Network.reaproCols (n : Network) : List Str := n.gas ++ n.liq

/-- `get_stoichiometry_matrices`, as lists of rows.
Models: `scaks/parsers/parser_base.py` 120-182. -/
def Network.stoichMatrices (n : Network) : Py (List (List Int) × List (List Int)) := do
  let s ← n.rxns.mapM (stoichRow n.siteCols)
  let r ← n.rxns.mapM (stoichRow n.reaproCols)
  pure (s, r)

end Verif
