import Verif.Model.Descriptors
/-
Attributes as objects: what is kept is a reference to the object assigned, or to the default, which belongs to the
descriptor and so to all models. `scaks/descriptors/descriptors.py` 14-53.
-/
namespace Verif

/-- All objects by address and, for each model, the address kept for the attribute. Address zero is the default. An object stands for a value
with everything inside it.
Models: `scaks/descriptors/descriptors.py` 25-28, 32-33. -/
structure AttrHeap where
  objs : List PyVal
  stored : Nat → Option Nat

/-- Before anything has happened.
Models: `scaks/descriptors/descriptors.py` 25-28. -/
def AttrHeap.init (default : PyVal) : AttrHeap := ⟨[default], fun _ => none⟩

/-- What a user does: make an object, change an object in place, read the attribute of a model, assign an object to it.
Models: the callers of `scaks/descriptors/descriptors.py` 30-53. -/
inductive AliasOp
  | make (v : PyVal)
  | change (r : Nat) (v : PyVal)
  | read (m : Nat)
  | assign (m r : Nat)

/-- `__get__`: the address of the object the user gets, a new one if the descriptor copies.
Models: `scaks/descriptors/descriptors.py` 30-37. -/
def AttrHeap.get (copies : Bool) (h : AttrHeap) (m : Nat) : AttrHeap × Nat :=
  let a := (h.stored m).getD 0
  let h' : AttrHeap := { h with stored := fun i => if i = m then some a else h.stored i }
  if copies then
    match h.objs[a]? with
    | some v => ({ h' with objs := h.objs ++ [v] }, h.objs.length)
    | none => (h', a)
  else (h', a)

/-- `__set__`: the object itself is kept, not a copy.
Models: `scaks/descriptors/descriptors.py` 43-53. -/
def AttrHeap.assign (check : PyVal → Py Unit) (h : AttrHeap) (m r : Nat) : Py AttrHeap :=
  match h.objs[r]? with
  | none => .error .NameError
  | some v => do
    let _ ← check v
    match h.stored m with
    | none => pure { h with stored := fun i => if i = m then some r else h.stored i }
    | some _ => .error .AttributeError

/-- One action, and the address of the object the user holds after it, if there is a new one. Errors change nothing.
Models: `scaks/descriptors/descriptors.py` 30-53. -/
def AttrHeap.step (copies : Bool) (check : PyVal → Py Unit) (h : AttrHeap) : AliasOp → AttrHeap × Option Nat
  | .make v => ({ h with objs := h.objs ++ [v] }, some h.objs.length)
  | .change r v => ({ h with objs := h.objs.set r v }, none)
  | .read m => ((h.get copies m).1, some (h.get copies m).2)
  | .assign m r => match h.assign check m r with
    | .ok h' => (h', none)
    | .error _ => (h, none)

/-- Objects to change or to assign are objects the user holds.
Models: the callers of `scaks/descriptors/descriptors.py` 30-53. -/
def AliasOp.allowed (held : List Nat) : AliasOp → Bool
  | .change r _ => decide (r ∈ held)
  | .assign _ r => decide (r ∈ held)
  | _ => true

/-- A history; the user acts only on objects they hold. Actions on others do not occur.
Models: the callers of `scaks/descriptors/descriptors.py` 30-53. -/
def AttrHeap.run (copies : Bool) (check : PyVal → Py Unit) : AttrHeap × List Nat → List AliasOp → AttrHeap × List Nat
  | s, [] => s
  | (h, held), op :: ops =>
    if op.allowed held then
      let s := h.step copies check op
      AttrHeap.run copies check (s.1, held ++ s.2.toList) ops
    else AttrHeap.run copies check (h, held) ops

/-- What reading the attribute gives.
Models: `scaks/descriptors/descriptors.py` 30-37. -/
def AttrHeap.value (copies : Bool) (h : AttrHeap) (m : Nat) : Option PyVal :=
  (h.get copies m).1.objs[(h.get copies m).2]?

end Verif
