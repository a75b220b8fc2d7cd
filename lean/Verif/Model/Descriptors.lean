import Verif.Model.Checks
import Mathlib.Data.Rat.Defs
/-
Attribute descriptors of models, `scaks/descriptors/descriptors.py`, the cache of
`Memoized`, and the list of analysis plugins.
-/
namespace Verif
open Dict

/-! ## Checks of values -/

/-- `type(v)`. Used by: `scaks/descriptors/descriptors.py` 75, 123, 263, 267. -/
inductive PyType
  | none | bool | int | float | str | list | tuple | dict
  deriving DecidableEq

/-- `type(v)`. Used by: `scaks/descriptors/descriptors.py` 75, 123, 263, 267. -/
def PyVal.type : PyVal → PyType
  | .none => .none
  | .bool _ => .bool
  | .int _ => .int
  | .float _ => .float
  | .str _ => .str
  | .list _ => .list
  | .tuple _ => .tuple
  | .dict _ => .dict

/-- `value not in candidates`: the membership test is given as a function, `none` for no candidates.
Models: `scaks/descriptors/descriptors.py` 79-81, 127-129. -/
def checkCandidates (candidates : Option (PyVal → Bool)) (v : PyVal) : Py Unit :=
  match candidates with
  | none => .ok ()
  | some c => if c v then .ok () else .error .ValueError

/-- `Type._check`, for integers, strings, booleans and dictionaries.
Models: `scaks/descriptors/descriptors.py` 73-81. -/
def typeCheck (t : PyType) (candidates : Option (PyVal → Bool)) (v : PyVal) : Py Unit :=
  if v.type ≠ t then .error .ValueError else checkCandidates candidates v

/-- `Float._check`.
Models: `scaks/descriptors/descriptors.py` 121-129. -/
def floatCheck (candidates : Option (PyVal → Bool)) (v : PyVal) : Py Unit :=
  if v.type ≠ .float ∧ v.type ≠ .int then .error .ValueError else checkCandidates candidates v

/-- `Sequence._check`.
Models: `scaks/descriptors/descriptors.py` 262-276. -/
def sequenceCheck (entryType : Option PyType) (candidates : Option (PyVal → Bool)) (v : PyVal) : Py Unit :=
  match v.seq? with
  | none => .error .ValueError
  | some l =>
    if (match entryType with | none => false | some t => l.any fun e => decide (e.type ≠ t)) then .error .ValueError
    else if (match candidates with | none => false | some c => l.any fun e => !c e) then .error .ValueError
    else .ok ()

/-- The check of species definitions as an attribute; keys that are no text have no `endswith`.
Models: `scaks/descriptors/descriptors.py` 207-209, `scaks/utilities/check_utilities.py` 61-82. -/
def speciesCheck : PyVal → Py Unit
  | .dict d => d.forM fun e =>
    match e.1 with
    | .str s => checkSpeciesLoop [(s, e.2)]
    | _ => .error .AttributeError
  | _ => .error .SetupError

/-- `check_ref_energies`.
Models: `scaks/utilities/check_utilities.py` 84-103. -/
def refEnergiesCheck : PyVal → Py Unit
  | .dict d => d.forM fun e =>
    if e.1.isStr = false then .error .SetupError
    else if e.2.isFloat = false then .error .SetupError
    else .ok ()
  | _ => .error .SetupError

/-! ## Attributes -/

/-- A descriptor.
Models: `scaks/descriptors/descriptors.py` 14-28. -/
structure Descr where
  name : Str
  check : PyVal → Py Unit
  default : PyVal

/-- `"_{}__{}".format(cls, name)`.
Models: `scaks/descriptors/descriptors.py` 31, 47, `scaks/functions.py` 115-140. -/
def privateName (cls name : Str) : Str := '_' :: cls ++ '_' :: '_' :: name

/-- `__get__`: stores the default when nothing is stored.
Models: `scaks/descriptors/descriptors.py` 30-37. -/
def descrGet (cls : Str) (d : Descr) (inst : Dict Str PyVal) : PyVal × Dict Str PyVal :=
  match get? inst (privateName cls d.name) with
  | some v => (v, inst)
  | none => (d.default, inst.set (privateName cls d.name) d.default)

/-- `__set__`.
Models: `scaks/descriptors/descriptors.py` 43-53. -/
def descrSet (cls : Str) (d : Descr) (inst : Dict Str PyVal) (v : PyVal) : Py (Dict Str PyVal) := do
  let _ ← d.check v
  match get? inst (privateName cls d.name) with
  | none => pure (inst.set (privateName cls d.name) v)
  | some _ => .error .AttributeError

/-- A read or an assignment of an attribute.
Models: `scaks/descriptors/descriptors.py` 30, 43. -/
inductive AttrOp
  | read
  | write (v : PyVal)

/-- The instance after an operation; a raised error leaves it unchanged.
Models: `scaks/descriptors/descriptors.py` 30-53. -/
def attrStep (cls : Str) (d : Descr) (inst : Dict Str PyVal) : AttrOp → Dict Str PyVal
  | .read => (descrGet cls d inst).2
  | .write v => match descrSet cls d inst v with
    | .ok inst' => inst'
    | .error _ => inst

/-! ## The cache of rate constants -/

/-- The keyword arguments of `get_rate_constants`: energies absent, `None` or given; `log` absent
or given.
Models: `scaks/descriptors/descriptors.py` 386-393. -/
structure MemoArgs (E : Type) where
  energies : Option (Option E)
  log : Option Bool
  deriving DecidableEq

/-- The descriptor object, shared by all solvers: the instance it was last taken from and the
results so far.
Models: `scaks/descriptors/descriptors.py` 378-384. -/
structure Memo (I E R : Type) where
  instance? : Option I
  results : Dict (MemoArgs E) R

/-- `__get__`.
Models: `scaks/descriptors/descriptors.py` 382-384. -/
def Memo.get {I E R : Type} (m : Memo I E R) (i : I) : Memo I E R := { m with instance? := some i }

/-- The key: `None` energies are replaced by those of the model.
Models: `scaks/descriptors/descriptors.py` 386-393. -/
def memoKey {I E : Type} (own : I → E) (i : I) (args : MemoArgs E) : MemoArgs E :=
  match args.energies with
  | some none => { args with energies := some (some (own i)) }
  | _ => args

/-- `__call__`. `fresh` is the function itself; what it raises is not stored.
Models: `scaks/descriptors/descriptors.py` 386-399. Equal keys have equal hashes and hashing does
not change results, so it is left out. -/
def Memo.call {I E R : Type} [DecidableEq E] (own : I → E) (fresh : I → MemoArgs E → Py R) (m : Memo I E R) (args : MemoArgs E) :
    Py R × Memo I E R :=
  match m.instance? with
  | none => (.error .AttributeError, m)
  | some i =>
    match get? m.results (memoKey own i args) with
    | some r => (.ok r, m)
    | none =>
      match fresh i args with
      | .ok r => (.ok r, { m with results := m.results.set (memoKey own i args) r })
      | .error e => (.error e, m)

/-- `solver.get_rate_constants(...)`: take the descriptor and call it.
Models: `scaks/descriptors/descriptors.py` 382-399. -/
def Memo.use {I E R : Type} [DecidableEq E] (own : I → E) (fresh : I → MemoArgs E → Py R) (m : Memo I E R) (i : I) (args : MemoArgs E) :
    Py R × Memo I E R := (m.get i).call own fresh args

/-! ## The cache when energies are changed in place -/

/-- A power modulo `p`, by squaring; the first number bounds the bits of the exponent.
Models: the hash of numbers used by `scaks/descriptors/descriptors.py` 344-362. -/
def powMod (p : Nat) : Nat → Nat → Nat → Nat
  | 0, _, _ => 1 % p
  | f + 1, b, e => if e % 2 = 1 then b * powMod p f (b * b % p) (e / 2) % p else powMod p f (b * b % p) (e / 2)

/-- CPython's hash of a number: the residue modulo the prime 2^61 - 1 with the sign of the number;
-1 is taken for errors, and -2 used in its place.
Models: the hash of numbers used by `scaks/descriptors/descriptors.py` 344-362. Denominators that
the prime divides do not occur in floats. -/
def pyHash (x : ℚ) : Int :=
  let p : Nat := 2 ^ 61 - 1
  -- the inverse of a unit modulo a prime is its power p - 2
  let m := (x.num.natAbs % p * powMod p 61 (x.den % p) (p - 2)) % p
  let h : Int := if x < 0 then -(m : Int) else m
  if h = -1 then -2 else h

/-- An entry of the dictionary of results: the hash when it was stored, the energies object in its
key, by address, and the result.
Models: `scaks/descriptors/descriptors.py` 395-399; the key holds the lists of the caller, and a
dictionary stores the hash beside the key. -/
structure HashEntry (R : Type) where
  hash : Int
  ref : Nat
  result : R

/-- Energies objects by address and the results stored.
Models: `scaks/descriptors/descriptors.py` 378-380. -/
structure HashMemo (E R : Type) where
  objs : List E
  entries : List (HashEntry R)

/-- `self.results[key]`: the first entry with the hash of the key whose energies are the same object
or equal now.
Models: `scaks/descriptors/descriptors.py` 395-396. -/
def HashMemo.find {E R : Type} [DecidableEq E] (H : E → Int) (m : HashMemo E R) (r : Nat) (e : E) : Option R :=
  (m.entries.find? fun t => decide (t.hash = H e ∧ (t.ref = r ∨ m.objs[t.ref]? = some e))).map (·.result)

/-- `solver.get_rate_constants(relative_energies=obj)` of one solver.
Models: `scaks/descriptors/descriptors.py` 386-399. An address without object cannot occur in
Python and is an error here. -/
def HashMemo.call {E R : Type} [DecidableEq E] (H : E → Int) (fresh : E → Py R) (m : HashMemo E R) (r : Nat) : Py R × HashMemo E R :=
  match m.objs[r]? with
  | none => (.error .NameError, m)
  | some e =>
    match m.find H r e with
    | some v => (.ok v, m)
    | none => match fresh e with
      | .ok v => (.ok v, { m with entries := m.entries ++ [⟨H e, r, v⟩] })
      | .error x => (.error x, m)

/-- What a user does: make energies, change them in place, ask for rate constants.
Models: `scaks/descriptors/descriptors.py` 386-399. -/
inductive HashOp (E : Type)
  | make (e : E)
  | change (r : Nat) (e : E)
  | ask (r : Nat)

/-- The state after an operation.
Models: `scaks/descriptors/descriptors.py` 386-399. -/
def HashMemo.step {E R : Type} [DecidableEq E] (H : E → Int) (fresh : E → Py R) (m : HashMemo E R) : HashOp E → HashMemo E R
  | .make e => { m with objs := m.objs ++ [e] }
  | .change r e => { m with objs := m.objs.set r e }
  | .ask r => (m.call H fresh r).2

/-! ## Analysis plugins -/

/-- List objects by address and the address each model has stored; address zero is the default
list of the descriptor.
Models: `scaks/models/micro_kinetic_model.py` 123, `scaks/descriptors/descriptors.py` 28, 30-37. -/
structure AnalysisHeap (P : Type) where
  lists : List (List P)
  stored : Nat → Option Nat

/-- The beginning: one empty default list.
Models: `scaks/models/micro_kinetic_model.py` 123. -/
def AnalysisHeap.init {P : Type} : AnalysisHeap P := ⟨[[]], fun _ => none⟩

/-- `model.analysis`: the address, stored by the first read.
Models: `scaks/descriptors/descriptors.py` 30-37. -/
def AnalysisHeap.addr {P : Type} (h : AnalysisHeap P) (m : Nat) : Nat := (h.stored m).getD 0

/-- The plugins of a model.
Models: `scaks/descriptors/descriptors.py` 30-37. -/
def AnalysisHeap.plugins {P : Type} (h : AnalysisHeap P) (m : Nat) : Option (List P) := h.lists[h.addr m]?

/-- `analysis_register`, for a plugin class: reads the list and appends to it.
Models: `scaks/models/micro_kinetic_model.py` 298-309. -/
def AnalysisHeap.register {P : Type} (h : AnalysisHeap P) (m : Nat) (p : P) : AnalysisHeap P :=
  ⟨h.lists.modify (h.addr m) (· ++ [p]), fun i => if i = m then some (h.addr m) else h.stored i⟩

/-- `model.analysis = [...]` with a new list; only possible while nothing is stored.
Models: `scaks/descriptors/descriptors.py` 43-53. -/
def AnalysisHeap.assign {P : Type} (h : AnalysisHeap P) (m : Nat) (l : List P) : Py (AnalysisHeap P) :=
  match h.stored m with
  | some _ => .error .AttributeError
  | none => .ok ⟨h.lists ++ [l], fun i => if i = m then some h.lists.length else h.stored i⟩

end Verif
