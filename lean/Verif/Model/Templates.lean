import Verif.Model.Energy
/-
The energy files that a model generates for its user to fill in, `scaks/models/kinetic_model.py` 332-372, and reading
them back by executing them, `scaks/parsers/absolute_energy_parser.py`, `scaks/parsers/relative_energy_parser.py`.
-/
namespace Verif
open Dict

/-! ## Writing -/

/-- A line with its end.
Models: the `\n` of `scaks/models/kinetic_model.py` 340-345, 358-369. -/
def endLine (s : Str) : Str := s ++ ['\n']

/-- One species with the text of its energy; the code always writes `0.0`, which the user replaces.
Models: `scaks/models/kinetic_model.py` 366-367. -/
def absEntry (p : Str × Str) : Str :=
  endLine (str! "    '" ++ p.1 ++ str! "': " ++ p.2 ++ str! ", # eV") ++ endLine []

/-- The text of a file with absolute energies.
Models: `scaks/models/kinetic_model.py` 357-369. -/
def absFile (entries : List (Str × Str)) : Str :=
  endLine (str! "# Absolute energies for all species.") ++ endLine (str! "absolute_energies = {") ++ endLine [] ++
    entries.flatMap absEntry ++ endLine (str! "}") ++ endLine []

/-- The names written, in order.
Models: `scaks/models/kinetic_model.py` 360-364. -/
def templateNames (n : Network) : List Str := n.gas ++ n.liq ++ n.ads ++ n.ts ++ n.sites

/-- `generate_absolute_energies_file`.
Models: `scaks/models/kinetic_model.py` 350-372. -/
def absTemplate (n : Network) : Str := absFile ((templateNames n).map fun sp => (sp, str! "0.0"))

/-- One reaction with the texts of its barrier and its energy; the code leaves them empty for the user to fill in.
Models: `scaks/models/kinetic_model.py` 343-345. -/
def relEntry (p : Str × Str × Str) : Str :=
  endLine (str! "# " ++ p.1) ++ endLine (str! "Ga.append(" ++ p.2.1 ++ str! ")") ++
    endLine (str! "dG.append(" ++ p.2.2 ++ str! ")") ++ endLine []

/-- The text of a file with relative energies.
Models: `scaks/models/kinetic_model.py` 340-345. -/
def relFile (entries : List (Str × Str × Str)) : Str :=
  endLine (str! "# Relative Energies for all elementary reactions.") ++ endLine (str! "Ga, dG = [], []") ++ endLine [] ++
    entries.flatMap relEntry

/-- `generate_relative_energies_file`.
Models: `scaks/models/kinetic_model.py` 332-348. -/
def relTemplate (rxns : List Str) : Str := relFile (rxns.map fun r => (r, [], []))

/-! ## Reading: the part of Python that occurs in these files -/

/-- A line without the part after `#` that is not inside quotes.
Models: the Python tokenizer on the files of `scaks/models/kinetic_model.py` 340-345, 358-369. -/
def dropComment (quoted : Bool) : Str → Str
  | [] => []
  | c :: s =>
    if c = '\'' then c :: dropComment (!quoted) s
    else if c = '#' ∧ quoted = false then []
    else c :: dropComment quoted s

/-- The text up to a character and the text after it.
Models: the Python tokenizer. -/
def upTo (c : Char) : Str → Option (Str × Str)
  | [] => none
  | d :: s => if d = c then some ([], s) else (upTo c s).map fun p => (d :: p.1, p.2)

/-- `'key': value,` on a stripped line.
Models: one item of a dictionary display. -/
def readItem : Str → Option (Str × Str)
  | [] => none
  | c :: s =>
    if c ≠ '\'' then none
    else
      match upTo '\'' s with
      | none => none
      | some (_, []) => none
      | some (key, d :: s') =>
        if d ≠ ':' then none
        else
          match upTo ',' s' with
          | some (v, []) => some (key, strip v)
          | _ => none

/-- The items of a dictionary display up to the closing brace, one per line; `num` reads a number, and texts that are
not numbers are not modelled.
Models: `exec` on the files of `scaks/models/kinetic_model.py` 358-369, called by
`scaks/parsers/absolute_energy_parser.py` 30-31. -/
def readItems {K : Type} (num : Str → Option K) : List Str → Dict Str K → Py (Dict Str K)
  | [], _ => .error .SyntaxError
  | l :: ls, d =>
    let l' := strip (dropComment false l)
    if l' = [] then readItems num ls d
    else if l' = str! "}" then
      if ls.all fun l => strip (dropComment false l) = [] then .ok d else .error .SyntaxError
    else
      match readItem l' with
      | none => .error .SyntaxError
      | some (k, v) =>
        match num v with
        | none => .error .SyntaxError
        | some x => readItems num ls (d.set k x)

/-- The lines before the dictionary.
Models: as `readItems`. -/
def readAbsLines {K : Type} (num : Str → Option K) : List Str → Py (Dict Str K)
  | [] => .error .KeyError
  | l :: ls =>
    let l' := strip (dropComment false l)
    if l' = [] then readAbsLines num ls
    else if l' = str! "absolute_energies = {" then readItems num ls []
    else .error .SyntaxError

/-- What executing a file binds to `absolute_energies`.
Models: `scaks/parsers/absolute_energy_parser.py` 30-33. -/
def readAbs {K : Type} (num : Str → Option K) (file : Str) : Py (Dict Str K) := readAbsLines num (splitOn '\n' file)

/-- One line of a file with relative energies, executed; before the assignment the lists are not bound.
Models: `exec` on the files of `scaks/models/kinetic_model.py` 340-345, called by
`scaks/parsers/relative_energy_parser.py` 83-85. -/
def execRelLine {K : Type} (num : Str → Option K) (env : Option (List K × List K)) (line : Str) : Py (Option (List K × List K)) :=
  let l := strip (dropComment false line)
  if l = [] then .ok env
  else if l = str! "Ga, dG = [], []" then .ok (some ([], []))
  else
    match upTo '(' l with
    | none => .error .SyntaxError
    | some (f, s) =>
      match upTo ')' s with
      | some (v, []) =>
        if f = str! "Ga.append" ∨ f = str! "dG.append" then
          match env with
          | none => .error .NameError
          | some (ga, dg) =>
            if strip v = [] then .error .TypeError
            else
              match num (strip v) with
              | none => .error .SyntaxError
              | some x => .ok (some (if f = str! "Ga.append" then (ga ++ [x], dg) else (ga, dg ++ [x])))
        else .error .NameError
      | _ => .error .SyntaxError

/-- What executing a file binds to `Ga` and `dG`. Syntax is checked line by line, not for the whole file first.
Models: `scaks/parsers/relative_energy_parser.py` 83-85. -/
def readRel {K : Type} (num : Str → Option K) (file : Str) : Py (RelData K) := do
  let env ← (splitOn '\n' file).foldlM (execRelLine num) none
  pure ⟨env.map (·.1), env.map (·.2)⟩

end Verif
