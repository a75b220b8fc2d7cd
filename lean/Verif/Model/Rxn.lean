import Verif.Py.Regex
/-
`scaks/parsers/rxn_parser.py`: chemical formulas, states and reaction equations.
-/
namespace Verif
open Re

/-- The object state of `ChemFormula` after construction.
Models: `scaks/parsers/rxn_parser.py` 287-301, 318-323 (the attributes set by `__split`). -/
structure Formula where
  text : Str
  stoich : Nat
  species : Str
  nsite : Nat
  site : Str
  speciesSite : Str
  deriving DecidableEq, Repr

/-- Character class `[\w\*-]` of the formula expression.
Models: `scaks/parsers/rxn_parser.py` 298. -/
def isSpChar (c : Char) : Bool := isWord c || c == '*' || c == '-'

/-- Character class `[a-zA-Z\*]`.
Models: `scaks/parsers/rxn_parser.py` 298-299. -/
def isSiteChar (c : Char) : Bool := isLetter c || c == '*'

/-- The expression `(\d*)(([\w\*-]*)_(\d*)([a-zA-Z\*]+))` matched at the start of the
text; the result is groups 1, 3, 4, 5.
Models: `scaks/parsers/rxn_parser.py` 298. -/
def formulaAt (s : Str) : Option (Str × Str × Str × Str) :=
  star isDigit s fun d s1 =>
    star isSpChar s1 fun sp s2 =>
      lit ['_'] s2 fun s3 =>
        star isDigit s3 fun n s4 =>
          plus isSiteChar s4 fun site _ => some (d, sp, n, site)

/-- `int(g) if g else 1`.
Models: `scaks/parsers/rxn_parser.py` 319 and 323, 368. -/
def intOr1 (g : Str) : Nat := if g = [] then 1 else intOf g

/-- Construction of a `ChemFormula` from text.
Models: `scaks/parsers/rxn_parser.py` 293-301 and 309-323 (`__init__`, `__split`). -/
def chemFormula (s : Str) : Py Formula :=
  match search formulaAt s with
  | none => .error .ChemFormulaError
  | some (d, sp, n, site) =>
    .ok { text := s, stoich := intOr1 d, species := sp, nsite := intOr1 n, site := site,
          speciesSite := sp ++ '_' :: (n ++ site) }

/-- The species types reported by `ChemFormula.type`.
Models: `scaks/parsers/rxn_parser.py` 325-336. -/
inductive SpType | gas | liquid | site | adsorbate
  deriving DecidableEq, Repr

/-- `ChemFormula.type`.
Models: `scaks/parsers/rxn_parser.py` 325-336. -/
def Formula.type (f : Formula) : SpType :=
  if f.site = ['g'] then .gas
  else if f.site = ['l'] then .liquid
  else if '*' ∈ f.speciesSite then .site else .adsorbate

/-- `re.findall(r'([a-zA-Z\*])(\d*)', s)`. The digit group is followed by nothing, so the
greedy star never gives characters back and is a maximal run. `findall` resumes after the
digits; as a digit cannot start a match, resuming at the first digit gives the same list.
Models: `scaks/parsers/rxn_parser.py` 299, 364. -/
def spTokens : Str → List (Char × Str)
  | [] => []
  | c :: cs =>
    if isSiteChar c then (c, cs.takeWhile isDigit) :: spTokens cs else spTokens cs

/-- `ChemFormula.get_species_elements_dict` with the default argument.
Models: `scaks/parsers/rxn_parser.py` 350-376. -/
def speciesElements (species : Str) : Dict Char Nat :=
  if species = ['*'] then []
  else (spTokens species).foldl (fun d t => Dict.bump d t.1 (intOr1 t.2)) []

/-- `ChemFormula.get_elements_dict`.
Models: `scaks/parsers/rxn_parser.py` 338-348. -/
def Formula.elements (f : Formula) : Dict Char Nat :=
  (speciesElements f.species).map fun e => (e.1, f.stoich * e.2)

/-- `ChemFormula.get_sites_dict`.
Models: `scaks/parsers/rxn_parser.py` 378-384. -/
def Formula.sites (f : Formula) : Dict Str Nat := [(f.site, f.nsite * f.stoich)]

/-- `ChemFormula.conserve` for an argument of the right type.
Models: `scaks/parsers/rxn_parser.py` 386-419 (the type test: `formulaConserveArg`). -/
def Formula.conserve (f g : Formula) : Py Bool :=
  if ¬ Dict.eqB f.elements g.elements then .error .ValueError
  else if ¬ Dict.eqB f.sites g.sites then .error .ValueError
  else .ok true

/-- `ChemState.split`.
Models: `scaks/parsers/rxn_parser.py` 150-153. -/
def stateSplit (s : Str) : List Str := (splitOn '+' s).map strip

/-- `ChemState.tolist`.
Models: `scaks/parsers/rxn_parser.py` 155-160. -/
def stateFormulas (s : Str) : Py (List Formula) := (stateSplit s).mapM chemFormula

/-- `ChemState.get_species_site_list` on the parsed formulas.
Models: `scaks/parsers/rxn_parser.py` 162-169. -/
def speciesSiteList (fs : List Formula) : List Str := fs.map (·.speciesSite)

/-- `ChemState.get_species_site_dict` on the parsed formulas: a dictionary
comprehension, later entries overwrite earlier ones.
Models: `scaks/parsers/rxn_parser.py` 171-179. -/
def speciesSiteDict (fs : List Formula) : Dict Str Nat :=
  fs.foldl (fun d f => Dict.set d f.speciesSite f.stoich) []

/-- The merging loop shared by `ChemState.get_elements_dict` and `get_sites_dict`.
Models: `scaks/parsers/rxn_parser.py` 190-195 and 212-220. -/
def mergeInto {κ : Type} [DecidableEq κ] (m d : Dict κ Nat) : Dict κ Nat :=
  d.foldl (fun acc e => Dict.bump acc e.1 e.2) m

/-- `ChemState.get_elements_dict` on the parsed formulas.
Models: `scaks/parsers/rxn_parser.py` 181-197. -/
def stateElements (fs : List Formula) : Dict Char Nat :=
  fs.foldl (fun m f => mergeInto m f.elements) []

/-- `ChemState.get_sites_dict` on the parsed formulas; sites `g` and `l` are skipped.
Models: `scaks/parsers/rxn_parser.py` 199-222. -/
def stateSites (fs : List Formula) : Dict Str Nat :=
  fs.foldl (fun m f => mergeInto m
    (f.sites.filter fun e => ¬ (e.1 = ['g'] ∨ e.1 = ['l']))) []

/-- The comparison part of `ChemState.conserve`.
Models: `scaks/parsers/rxn_parser.py` 238-258. -/
def conserveFormulas (fs gs : List Formula) : Py Bool :=
  if ¬ Dict.eqB (stateElements fs) (stateElements gs) then .error .ValueError
  else if ¬ Dict.eqB (stateSites fs) (stateSites gs) then .error .ValueError
  else .ok true

/-- `ChemState.conserve` for an argument of the right type (for a wrong type the code
returns, not raises, an exception object: `stateConserveArg`).
Models: `scaks/parsers/rxn_parser.py` 224-258. -/
def stateConserve (s t : Str) : Py Bool := do
  let fs ← stateFormulas s
  let gs ← stateFormulas t
  conserveFormulas fs gs

/-- Character class `[^\<\>]`.
Models: `scaks/parsers/rxn_parser.py` 32-33. -/
def notAngle (c : Char) : Bool := c != '<' && c != '>'

/-- `(?:\<?\-\>)`: the optional `<` is tried first.
Models: `scaks/parsers/rxn_parser.py` 32-33. -/
def arrow {β : Type} (s : Str) (k : Str → Option β) : Option β :=
  alt (lit ['<', '-', '>'] s k) (lit ['-', '>'] s k)

/-- The expression `([^<>]*)(?:<?->)(?:([^<>]*)(?:<?->))?([^<>]*)` at the start of the
text; the result is the three groups, the middle one possibly absent.
Models: `scaks/parsers/rxn_parser.py` 32-33. -/
def statesAt (s : Str) : Option (Str × Option Str × Str) :=
  star notAngle s fun g1 s1 =>
    arrow s1 fun s2 =>
      alt
        (star notAngle s2 fun g2 s3 =>
          arrow s3 fun s4 =>
            star notAngle s4 fun g3 _ => some (g1, some g2, g3))
        (star notAngle s2 fun g3 _ => some (g1, none, g3))

/-- `RxnEquation.tolist`: the state texts. Empty groups are dropped before stripping;
with no match `m.group` raises `AttributeError`.
Models: `scaks/parsers/rxn_parser.py` 26-41. -/
def eqnStates (s : Str) : Py (List Str) :=
  match search statesAt s with
  | none => .error .AttributeError
  | some (g1, g2, g3) =>
    .ok (([g1] ++ g2.toList ++ [g3]).filter (· ≠ []) |>.map strip)

/-- `RxnEquation.to_formula_list`.
Models: `scaks/parsers/rxn_parser.py` 43-54. -/
def eqnFormulas (s : Str) : Py (List (List Formula)) := do
  (← eqnStates s).mapM stateFormulas

/-- `RxnEquation.check_conservation`; an empty state list raises `IndexError`.
Models: `scaks/parsers/rxn_parser.py` 56-69. -/
def checkConservation (s : Str) : Py Bool := do
  match ← eqnStates s with
  | [] => .error .IndexError
  | first :: rest =>
    rest.forM (fun t => do let _ ← stateConserve first t)
    pure true

/-- `RxnEquation.revert`: the text of the reverse equation; `expression_template` is
unbound unless there are two or three states.
Models: `scaks/parsers/rxn_parser.py` 88-108. -/
def eqnRevert (s : Str) : Py Str := do
  match ← eqnStates s with
  | [a, b] => pure (b ++ str! " -> " ++ a)
  | [a, b, c] => pure (c ++ str! " <-> " ++ b ++ str! " -> " ++ a)
  | _ => .error .UnboundLocalError

/-- `RxnEquation.adsorption_gases`.
Models: `scaks/parsers/rxn_parser.py` 110-119. -/
def adsorptionGases (s : Str) : Py (List Formula) := do
  match (← eqnFormulas s).head? with
  | none => .error .IndexError
  | some fs => pure (fs.filter (·.type = .gas))

/-- `RxnEquation.desorption_gases`.
Models: `scaks/parsers/rxn_parser.py` 121-130. -/
def desorptionGases (s : Str) : Py (List Formula) := do
  match (← eqnFormulas s).getLast? with
  | none => .error .IndexError
  | some fs => pure (fs.filter (·.type = .gas))

end Verif
