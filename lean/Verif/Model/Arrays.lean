import Verif.Model.Descriptors
/-
Arrays made from nested lists, and the descriptors of two-dimensional lists,
`scaks/descriptors/descriptors.py` 279-324.
-/
namespace Verif

/-- The kind of the entries of an array: truth values, integers, floats, texts, other objects.
Used by: `scaks/descriptors/descriptors.py` 294-301. -/
inductive NpKind
  | b | i | f | U | O
  deriving DecidableEq

/-- The common kind of two.
Models: the conversion by `np.array` in `scaks/descriptors/descriptors.py` 295, 321. -/
def NpKind.join : NpKind → NpKind → NpKind
  | .O, _ => .O
  | _, .O => .O
  | .U, _ => .U
  | _, .U => .U
  | .f, _ => .f
  | _, .f => .f
  | .i, _ => .i
  | _, .i => .i
  | .b, .b => .b

/-- Shape and kind of an array; no kind if it has no entries at all.
Used by: `scaks/descriptors/descriptors.py` 295-301. -/
structure NpInfo where
  shape : List Nat
  kind : Option NpKind
  deriving DecidableEq

/-- The common kind of arrays that may be empty.
Models: the conversion by `np.array` in `scaks/descriptors/descriptors.py` 295, 321. -/
def joinKinds : Option NpKind → Option NpKind → Option NpKind
  | none, k => k
  | k, none => k
  | some k, some k' => some (k.join k')

/-- The array of a sequence of arrays; `none` if their shapes differ.
Models: the conversion by `np.array` in `scaks/descriptors/descriptors.py` 295, 321. -/
def stackInfo : List NpInfo → Option NpInfo
  | [] => some ⟨[0], none⟩
  | a :: l =>
    if l.all fun c => decide (c.shape = a.shape) then some ⟨(l.length + 1) :: a.shape, (a :: l).foldr (fun x k => joinKinds x.kind k) none⟩
    else none

mutual
/-- `np.array(value)`; `none` for lists of different lengths, which raise a `ValueError` or, in old versions, make an
array of objects, which the caller answers with the same error. Integers are those of 64 bits.
Models: `scaks/descriptors/descriptors.py` 295, 321. -/
def npArray : PyVal → Option NpInfo
  | .none => some ⟨[], some .O⟩
  | .bool _ => some ⟨[], some .b⟩
  | .int _ => some ⟨[], some .i⟩
  | .float _ => some ⟨[], some .f⟩
  | .str _ => some ⟨[], some .U⟩
  | .dict _ => some ⟨[], some .O⟩
  | .list l => (npArrays l).bind stackInfo
  | .tuple l => (npArrays l).bind stackInfo

/-- The arrays of the entries.
Models: the conversion by `np.array` in `scaks/descriptors/descriptors.py` 295, 321. -/
def npArrays : List PyVal → Option (List NpInfo)
  | [] => some []
  | v :: l => (npArray v).bind fun a => (npArrays l).map fun t => a :: t
end

/-- `FloatList2D._check`; an array without entries has floats.
Models: `scaks/descriptors/descriptors.py` 294-301. -/
def floatList2DCheck (v : PyVal) : Py Unit :=
  match npArray v with
  | none => .error .ValueError
  | some a =>
    if v.type ≠ .list then .error .ValueError
    else if a.kind.getD .f ≠ .f then .error .ValueError
    else if a.shape.length ≠ 2 then .error .ValueError
    else .ok ()

/-- `SpaceVectors._check`.
Models: `scaks/descriptors/descriptors.py` 319-324. -/
def spaceVectorsCheck (v : PyVal) : Py Unit := do
  let _ ← floatList2DCheck v
  match npArray v with
  | none => .error .ValueError
  | some a => match a.shape[1]? with
    | none => .error .IndexError
    | some n => if n ≠ 3 then .error .ValueError else .ok ()

end Verif
