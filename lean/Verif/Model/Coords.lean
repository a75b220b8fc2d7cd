import Verif.Py.Basic
import Mathlib.Algebra.Order.Field.Basic
/-
Groups of coordinates, `scaks/utilities/coordinate_utilities.py`. A group holds references to a
list of coordinates and a list of elements; lists live in a store, as they can be shared.
Coordinates are lists of exact numbers.
-/
namespace Verif

section
variable {K : Type}

/-- The lists of coordinates and the lists of elements; a reference is a position.
Models: the list objects of `scaks/utilities/coordinate_utilities.py` 22-31. -/
structure CStore (K : Type) where
  cs : List (List (List K))
  es : List (List Str)

/-- A `CoordsGroup`: references to its two lists.
Models: `scaks/utilities/coordinate_utilities.py` 22-31. -/
structure Group where
  c : Nat
  e : Nat
  deriving DecidableEq

/-- `self.__coords`; a reference to a list that does not exist cannot occur in Python and is
an error here.
Models: `scaks/utilities/coordinate_utilities.py` 158-161. -/
def CStore.coords (s : CStore K) (g : Group) : Py (List (List K)) :=
  match s.cs[g.c]? with
  | some l => .ok l
  | none => .error .NameError

/-- `self.__elements`.
Models: `scaks/utilities/coordinate_utilities.py` 163-166. -/
def CStore.elems (s : CStore K) (g : Group) : Py (List Str) :=
  match s.es[g.e]? with
  | some l => .ok l
  | none => .error .NameError

/-- `CoordsGroup(coordinates, elements)` with newly built lists; `none` is a missing argument. The
entries are not checked by the code; the model has lists of numbers and strings.
Models: `scaks/utilities/coordinate_utilities.py` 22-37. -/
def newGroup (s : CStore K) (coords : Option (List (List K))) (elems : Option (List Str)) :
    CStore K × Py Group :=
  let cs := coords.getD []
  let es := elems.getD (List.replicate cs.length (str! "V"))
  let s' : CStore K := ⟨s.cs ++ [cs], s.es ++ [es]⟩
  if cs.length ≠ es.length then (s', .error .ValueError) else (s', .ok ⟨s.cs.length, s.es.length⟩)

/-- `CoordsGroup(g.coordinates())`: the new group shares the list of coordinates.
Models: `scaks/utilities/coordinate_utilities.py` 26-29, 158-161. -/
def shareGroup (s : CStore K) (g : Group) : CStore K × Py Group :=
  match s.coords g with
  | .error e => (s, .error e)
  | .ok cs => (⟨s.cs, s.es ++ [List.replicate cs.length (str! "V")]⟩, .ok ⟨g.c, s.es.length⟩)

/-- A coordinate argument: `none` is not a list, an entry `none` is not a float.
Models: `scaks/utilities/coordinate_utilities.py` 39-51. -/
abbrev CoordArg (K : Type) := Option (List (Option K))

/-- An element argument: missing, a string, or something else.
Models: `scaks/utilities/coordinate_utilities.py` 67-72. -/
inductive ElemArg
  | missing
  | str (s : Str)
  | other

/-- `__check_coordinate`.
Models: `scaks/utilities/coordinate_utilities.py` 39-51. -/
def checkCoord : CoordArg K → Py (List K)
  | none => .error .ValueError
  | some l => if l.length ≠ 3 then .error .ValueError else l.mapM fun x => match x with
    | some v => .ok v
    | none => .error .ValueError

/-- `append`: the coordinate is appended before the element is checked.
Models: `scaks/utilities/coordinate_utilities.py` 53-72. -/
def appendG (s : CStore K) (g : Group) (coord : CoordArg K) (elem : ElemArg) : CStore K × Py Unit :=
  match checkCoord coord with
  | .error e => (s, .error e)
  | .ok c =>
    let s1 : CStore K := ⟨s.cs.modify g.c (· ++ [c]), s.es⟩
    match elem with
    | .missing => (⟨s1.cs, s1.es.modify g.e (· ++ [str! "V"])⟩, .ok ())
    | .other => (s1, .error .ValueError)
    | .str x => (⟨s1.cs, s1.es.modify g.e (· ++ [x])⟩, .ok ())

/-- The loop of `extend`; the first exception ends it.
Models: `scaks/utilities/coordinate_utilities.py` 86-87. -/
def extendLoop (g : Group) : CStore K → List (CoordArg K × ElemArg) → CStore K × Py Unit
  | s, [] => (s, .ok ())
  | s, (c, e) :: l =>
    match appendG s g c e with
    | (s', .ok ()) => extendLoop g s' l
    | (s', .error x) => (s', .error x)

/-- `extend`.
Models: `scaks/utilities/coordinate_utilities.py` 74-87. -/
def extendG (s : CStore K) (g : Group) (coords : List (CoordArg K)) (elems : Option (List ElemArg)) :
    CStore K × Py Unit :=
  extendLoop g s (coords.zip (elems.getD (List.replicate coords.length (.str (str! "V")))))

/-- The sum of a coordinate and a vector by numpy broadcasting.
Models: `scaks/utilities/coordinate_utilities.py` 107. -/
def broadcastAdd [Add K] (a v : List K) : Py (List K) :=
  if a.length = v.length then .ok (List.zipWith (· + ·) a v)
  else match v with
    | [x] => .ok (a.map (· + x))
    | _ => match a with
      | [y] => .ok (v.map (y + ·))
      | _ => .error .ValueError

/-- The coordinates after the move. An array of no coordinates has the shape `(0,)`; coordinates of
different lengths give no array.
Models: `scaks/utilities/coordinate_utilities.py` 105-107. -/
def moveCoords [Add K] (cs : List (List K)) (v : List K) : Py (List (List K)) :=
  match cs with
  | [] => if v.length = 0 ∨ v.length = 1 then .ok [] else .error .ValueError
  | c :: rest =>
    if rest.all (fun d => d.length == c.length) then (c :: rest).mapM (broadcastAdd · v)
    else .error .ValueError

/-- `move` with a list as vector; the check of its length has no effect for lists.
Models: `scaks/utilities/coordinate_utilities.py` 89-109. -/
def moveG [Zero K] [Add K] (s : CStore K) (g : Group) (v : Option (List K)) : CStore K × Py Group :=
  match s.coords g, s.elems g with
  | .ok cs, .ok es =>
    match moveCoords cs (v.getD [0, 0, 0]) with
    | .ok cs' => newGroup s (some cs') (some es)
    | .error e => (s, .error e)
  | .error e, _ => (s, .error e)
  | _, .error e => (s, .error e)

end

section
variable {K : Type} [Field K] [LinearOrder K]

/-- `tolerance`.
Models: `scaks/utilities/coordinate_utilities.py` 20. -/
def coordTol : K := 1 / 10000

/-- `__compare_coords`.
Models: `scaks/utilities/coordinate_utilities.py` 111-119. -/
def compareCoords : List K → List K → Bool
  | x :: a, y :: b => if |x - y| > coordTol then false else compareCoords a b
  | _, _ => true

/-- The inner loop of `__add__`: the position and the element of the first equal coordinate.
Models: `scaks/utilities/coordinate_utilities.py` 134-145. -/
def findEqual (coord : List K) : List (List K × Str) → Option (Nat × Str)
  | [] => none
  | (c, e) :: l =>
    if compareCoords coord c then some (0, e)
    else match findEqual coord l with
      | some (i, x) => some (i + 1, x)
      | none => none

/-- The outer loop of `__add__`.
Models: `scaks/utilities/coordinate_utilities.py` 132-149. -/
def addLoop (ref : List (List K × Str)) : List (List K) → List Str → List (List K × Str) →
    List (List K) × List Str
  | mc, me, [] => (mc, me)
  | mc, me, (coord, elem) :: l =>
    match findEqual coord ref with
    | some (idx, refElem) =>
      addLoop ref mc (if elem ≠ refElem ∧ refElem = str! "V" then me.set idx elem else me) l
    | none => addLoop ref (mc ++ [coord]) (me ++ [elem]) l

/-- `__add__`.
Models: `scaks/utilities/coordinate_utilities.py` 121-153. -/
def addG (s : CStore K) (g h : Group) : CStore K × Py Group :=
  match s.coords g, s.elems g, s.coords h, s.elems h with
  | .ok c1, .ok e1, .ok c2, .ok e2 =>
    let r := addLoop (c1.zip e1) c1 e1 (c2.zip e2)
    newGroup s (some r.1) (some r.2)
  | _, _, _, _ => (s, .error .NameError)

/-! ### Histories -/

/-- The operations of a user; groups are given by their number.
Models: `scaks/utilities/coordinate_utilities.py` 22-153. -/
inductive GOp (K : Type)
  | new (coords : Option (List (List K))) (elems : Option (List Str))
  | share (g : Nat)
  | append (g : Nat) (coord : CoordArg K) (elem : ElemArg)
  | extend (g : Nat) (coords : List (CoordArg K)) (elems : Option (List ElemArg))
  | move (g : Nat) (v : Option (List K))
  | add (g h : Nat)

/-- The lists and the groups made so far.
Models: `scaks/utilities/coordinate_utilities.py` 22-31. -/
structure GState (K : Type) where
  store : CStore K
  groups : List Group

/-- A new group is kept when there is one.
Models: `scaks/utilities/coordinate_utilities.py` 109, 151. -/
def GState.keep (gs : List Group) : CStore K × Py Group → GState K
  | (s, .ok g) => ⟨s, gs ++ [g]⟩
  | (s, .error _) => ⟨s, gs⟩

/-- One operation, also when it raises; an operation on a group that does not exist does nothing.
Models: `scaks/utilities/coordinate_utilities.py` 22-153. -/
def GState.step (st : GState K) : GOp K → GState K
  | .new c e => GState.keep st.groups (newGroup st.store c e)
  | .share g => match st.groups[g]? with
    | some g => GState.keep st.groups (shareGroup st.store g)
    | none => st
  | .append g c e => match st.groups[g]? with
    | some g => ⟨(appendG st.store g c e).1, st.groups⟩
    | none => st
  | .extend g c e => match st.groups[g]? with
    | some g => ⟨(extendG st.store g c e).1, st.groups⟩
    | none => st
  | .move g v => match st.groups[g]? with
    | some g => GState.keep st.groups (moveG st.store g v)
    | none => st
  | .add g h => match st.groups[g]?, st.groups[h]? with
    | some g, some h => GState.keep st.groups (addG st.store g h)
    | _, _ => st

/-- A history of operations from nothing.
Models: `scaks/utilities/coordinate_utilities.py` 22-153. -/
def runGroups (ops : List (GOp K)) : GState K := ops.foldl GState.step ⟨⟨[], []⟩, []⟩

end
end Verif
