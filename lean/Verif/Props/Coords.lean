import Verif.Model.Coords
import Verif.Lemmas.MeanField
import Mathlib.Tactic.Ring
import Mathlib.Tactic.NormNum
/-
Properties C44-C46: groups of coordinates.
-/
namespace Verif
set_option linter.unusedSectionVars false

/-! ## C44 -/

section
variable {K : Type} [Field K] [LinearOrder K]

/-- Every group has as many elements as coordinates. -/
def GroupsConsistent (st : GState K) : Prop :=
  ∀ g ∈ st.groups, ∃ cs es, st.store.coords g = .ok cs ∧ st.store.elems g = .ok es ∧ cs.length = es.length

/-- Operations without sharing of lists between groups and with strings for elements. -/
def GOp.plain : GOp K → Prop
  | .share _ => False
  | .append _ _ .other => False
  | .extend _ _ (some l) => ∀ e ∈ l, match e with | .other => False | _ => True
  | _ => True

/-- What is kept up by plain operations. -/
structure GInv (s : CStore K) (gs : List Group) : Prop where
  len : s.cs.length = s.es.length
  same : ∀ g ∈ gs, g.c = g.e ∧ ∃ cs es, s.cs[g.c]? = some cs ∧ s.es[g.c]? = some es ∧ cs.length = es.length

theorem ginv_new {s : CStore K} {gs : List Group} (h : GInv s gs) (c : Option (List (List K))) (e : Option (List Str)) :
    GInv (GState.keep gs (newGroup s c e)).store (GState.keep gs (newGroup s c e)).groups := by
  have keep : ∀ x y, GInv (⟨s.cs ++ [x], s.es ++ [y]⟩ : CStore K) gs := by
    intro x y
    refine ⟨by simp [h.len], fun g hg => ?_⟩
    obtain ⟨e1, cs, es, a, b, l⟩ := h.same g hg
    have l1 := (List.getElem?_eq_some_iff.mp a).1
    have l2 := (List.getElem?_eq_some_iff.mp b).1
    exact ⟨e1, cs, es, by rw [List.getElem?_append_left l1]; exact a, by rw [List.getElem?_append_left l2]; exact b, l⟩
  unfold newGroup
  dsimp only
  split
  · exact keep _ _
  · rename_i hl
    refine ⟨(keep _ _).len, fun g hg => ?_⟩
    simp only [GState.keep, List.mem_append, List.mem_singleton] at hg
    rcases hg with hg | rfl
    · exact (keep _ _).same g hg
    · refine ⟨h.len, _, _, List.getElem?_concat_length, ?_, by simpa using hl⟩
      show (s.es ++ [_])[s.cs.length]? = _
      rw [h.len]
      exact List.getElem?_concat_length

theorem ginv_append {s : CStore K} {gs : List Group} (h : GInv s gs) {g : Group} (hg : g ∈ gs) (c : CoordArg K)
    {e : ElemArg} (he : match e with | .other => False | _ => True) : GInv (appendG s g c e).1 gs := by
  unfold appendG
  cases checkCoord c with
  | error x => exact h
  | ok c =>
    dsimp only
    have main : ∀ x, GInv (⟨s.cs.modify g.c (· ++ [c]), s.es.modify g.e (· ++ [x])⟩ : CStore K) gs := by
      intro x
      refine ⟨by simp [h.len], fun q hq => ?_⟩
      obtain ⟨e1, cs, es, a, b, l⟩ := h.same q hq
      obtain ⟨e2, -⟩ := h.same g hg
      refine ⟨e1, ?_⟩
      dsimp only
      rw [List.getElem?_modify, List.getElem?_modify, a, b, ← e2]
      by_cases hc : g.c = q.c
      · exact ⟨cs ++ [c], es ++ [x], by simp [hc], by simp [hc], by simp [l]⟩
      · exact ⟨cs, es, by simp [hc], by simp [hc], l⟩
    cases e with
    | missing => exact main _
    | str x => exact main _
    | other => exact absurd he (by simp)

theorem ginv_extend {gs : List Group} {g : Group} (hg : g ∈ gs) : ∀ (l : List (CoordArg K × ElemArg))
    {s : CStore K}, GInv s gs → (∀ p ∈ l, match p.2 with | .other => False | _ => True) → GInv (extendLoop g s l).1 gs
  | [], s, h, _ => h
  | (c, e) :: l, s, h, hl => by
    unfold extendLoop
    have h1 := ginv_append h hg c (hl (c, e) (by simp))
    cases hr : appendG s g c e with
    | mk s' r =>
      rw [hr] at h1
      cases r with
      | ok u => exact ginv_extend hg l h1 fun p hp => hl p (by simp [hp])
      | error x => exact h1

theorem ginv_step {st : GState K} (h : GInv st.store st.groups) {op : GOp K} (hop : op.plain) :
    GInv (st.step op).store (st.step op).groups := by
  cases op with
  | new c e => exact ginv_new h c e
  | share g => exact absurd hop id
  | append g c e =>
    unfold GState.step; dsimp only
    cases hg : st.groups[g]? with
    | none => exact h
    | some q =>
      refine ginv_append h (List.mem_of_getElem? hg) c ?_
      cases e with
      | other => exact hop
      | _ => trivial
  | extend g c e =>
    unfold GState.step; dsimp only
    cases hg : st.groups[g]? with
    | none => exact h
    | some q =>
      refine ginv_extend (List.mem_of_getElem? hg) _ h ?_
      intro p hp
      have := (List.of_mem_zip hp).2
      cases e with
      | none =>
        rw [Option.getD_none] at this
        rw [List.eq_of_mem_replicate this]; trivial
      | some l => exact hop _ this
  | move g v =>
    unfold GState.step; dsimp only
    cases hg : st.groups[g]? with
    | none => exact h
    | some q =>
      dsimp only
      unfold moveG
      split
      · split
        · exact ginv_new h _ _
        · exact h
      · exact h
      · exact h
  | add g k =>
    unfold GState.step; dsimp only
    split
    · unfold addG
      split
      · exact ginv_new h _ _
      · exact h
    · exact h

/-- After any history of operations that do not share lists between groups and pass strings as
elements, including failing ones, every group has as many elements as coordinates. Missing: element
arguments that are not strings and shared lists, where it fails (`C44_bad_element_refuted`,
`C44_shared_list_refuted`). -/
theorem C44_consistent_partial (ops : List (GOp K)) (h : ∀ op ∈ ops, op.plain) : GroupsConsistent (runGroups ops) := by
  have key : ∀ (ops : List (GOp K)) (st : GState K), (∀ op ∈ ops, op.plain) → GInv st.store st.groups →
      GInv (ops.foldl GState.step st).store (ops.foldl GState.step st).groups := by
    intro ops
    induction ops with
    | nil => intro st _ h; exact h
    | cons op ops ih =>
      intro st hp hi
      exact ih _ (fun o ho => hp o (by simp [ho])) (ginv_step hi (hp op (by simp)))
  have := key ops ⟨⟨[], []⟩, []⟩ h ⟨rfl, fun g hg => (nomatch hg)⟩
  intro g hg
  obtain ⟨e, cs, es, a, b, l⟩ := this.same g hg
  refine ⟨cs, es, ?_, ?_, l⟩
  · unfold CStore.coords
    rw [show (runGroups ops).store.cs[g.c]? = some cs from a]
  · unfold CStore.elems
    rw [← e, show (runGroups ops).store.es[g.c]? = some es from b]

/-- **C44** Adding a coordinate succeeds exactly for a list of three numbers and an element that is missing or a string. The
group then ends in this coordinate and this element, and "V" for a missing one; other lists are as before. -/
theorem C44_append (s : CStore K) (g : Group) (c : CoordArg K) (e : ElemArg) :
    ((appendG s g c e).2 = .ok () ↔ (∃ x y z, c = some [some x, some y, some z]) ∧ e ≠ .other) ∧
    ∀ x y z, c = some [some x, some y, some z] → e ≠ .other → ∀ cs es, s.coords g = .ok cs → s.elems g = .ok es →
      (appendG s g c e).1.coords g = .ok (cs ++ [[x, y, z]]) ∧
      (appendG s g c e).1.elems g = .ok (es ++ [match e with | .str n => n | _ => str! "V"]) ∧
      (∀ i, i ≠ g.c → (appendG s g c e).1.cs[i]? = s.cs[i]?) ∧ (∀ i, i ≠ g.e → (appendG s g c e).1.es[i]? = s.es[i]?) := by
  constructor
  · constructor
    · intro h
      unfold appendG at h
      match c, h with
      | none, h => cases h
      | some l, h =>
        unfold checkCoord at h
        by_cases hl : l.length ≠ 3
        · simp only [if_pos hl] at h; cases h
        · simp only [if_neg hl] at h
          push Not at hl
          match l, hl, h with
          | [some x, some y, some z], _, h =>
            refine ⟨⟨x, y, z, rfl⟩, ?_⟩
            rintro rfl
            cases h
          | [none, _, _], _, h => cases h
          | [some _, none, _], _, h => cases h
          | [some _, some _, none], _, h => cases h
    · rintro ⟨⟨x, y, z, rfl⟩, he⟩
      cases e with
      | other => exact absurd rfl he
      | _ => rfl
  · rintro x y z rfl he cs es hc hs
    have hc' : s.cs[g.c]? = some cs := by
      unfold CStore.coords at hc
      split at hc
      · cases hc; assumption
      · cases hc
    have hs' : s.es[g.e]? = some es := by
      unfold CStore.elems at hs
      split at hs
      · cases hs; assumption
      · cases hs
    obtain ⟨n, h1, h2⟩ : ∃ n, appendG s g (some [some x, some y, some z]) e
        = (⟨s.cs.modify g.c (· ++ [[x, y, z]]), s.es.modify g.e (· ++ [n])⟩, .ok ()) ∧
        n = (match e with | .str n => n | _ => str! "V") := by
      cases e with
      | other => exact absurd rfl he
      | missing => exact ⟨_, rfl, rfl⟩
      | str n => exact ⟨_, rfl, rfl⟩
    rw [h1, ← h2]
    unfold CStore.coords CStore.elems
    dsimp only
    refine ⟨?_, ?_, ?_, ?_⟩
    · rw [List.getElem?_modify, hc']; simp
    · rw [List.getElem?_modify, hs']; simp
    · intro i hi; rw [List.getElem?_modify]; simp [Ne.symm hi]
    · intro i hi; rw [List.getElem?_modify]; simp [Ne.symm hi]

/-- Adding several coordinates at once is adding them one after the other, up to the first that is rejected; without
elements all get "V", with too few elements the rest of the coordinates is left out. -/
theorem C44_extend (s : CStore K) (g : Group) (cs : List (List K)) (es : Option (List Str)) (xs : List (K × K × K))
    (ns : List Str) (h1 : s.coords g = .ok cs) (es0 : List Str) (h2 : s.elems g = .ok es0)
    (hn : ns = (es.getD (List.replicate xs.length (str! "V")))) :
    (extendG s g (xs.map fun p => some [some p.1, some p.2.1, some p.2.2]) (es.map fun l => l.map .str)).2 = .ok () ∧
    (extendG s g (xs.map fun p => some [some p.1, some p.2.1, some p.2.2]) (es.map fun l => l.map .str)).1.coords g
      = .ok (cs ++ ((xs.zip ns).map fun p => [p.1.1, p.1.2.1, p.1.2.2])) ∧
    (extendG s g (xs.map fun p => some [some p.1, some p.2.1, some p.2.2]) (es.map fun l => l.map .str)).1.elems g
      = .ok (es0 ++ ((xs.zip ns).map (·.2))) := by
  have hz : (xs.map fun p => some [some p.1, some p.2.1, some p.2.2]).zip
      ((es.map fun l => l.map ElemArg.str).getD (List.replicate (xs.map fun p => some [some p.1, some p.2.1, some p.2.2]).length (.str (str! "V"))))
      = (xs.zip ns).map fun p => (some [some p.1.1, some p.1.2.1, some p.1.2.2], .str p.2) := by
    subst hn
    cases es with
    | none =>
      simp only [Option.map_none, Option.getD_none, List.length_map]
      rw [show List.replicate xs.length (ElemArg.str (str! "V")) = (List.replicate xs.length (str! "V")).map ElemArg.str by simp,
        List.zip_map]
      rfl
    | some l => simp only [Option.map_some, Option.getD_some]; rw [List.zip_map]; rfl
  unfold extendG
  rw [hz]
  generalize xs.zip ns = l
  clear hz hn
  induction l generalizing s cs es0 with
  | nil => simp [extendLoop, h1, h2]
  | cons p l ih =>
    obtain ⟨a1, a2, -, -⟩ := (C44_append s g (some [some p.1.1, some p.1.2.1, some p.1.2.2]) (.str p.2)).2 _ _ _ rfl (by simp) cs es0 h1 h2
    have hok := (C44_append s g (some [some p.1.1, some p.1.2.1, some p.1.2.2]) (.str p.2)).1.mpr ⟨⟨_, _, _, rfl⟩, by simp⟩
    rw [List.map_cons]
    unfold extendLoop
    cases hr : appendG s g (some [some p.1.1, some p.1.2.1, some p.1.2.2]) (.str p.2) with
    | mk s' r =>
      rw [hr] at a1 a2 hok
      cases hok
      obtain ⟨b1, b2, b3⟩ := ih s' _ a1 _ a2
      exact ⟨b1, by rw [b2]; simp, by rw [b3]; simp⟩

/-- A group made from the coordinates of another one has the same coordinates and one "V" for each; all other lists stay. -/
theorem C44_share (s : CStore K) (g : Group) (cs : List (List K)) (h : s.coords g = .ok cs) :
    ∃ g', (shareGroup s g).2 = .ok g' ∧ (shareGroup s g).1.coords g' = .ok cs ∧
      (shareGroup s g).1.elems g' = .ok (List.replicate cs.length (str! "V")) ∧
      ∀ g'' : Group, (∀ c, s.coords g'' = .ok c → (shareGroup s g).1.coords g'' = .ok c) ∧
        ∀ e, s.elems g'' = .ok e → (shareGroup s g).1.elems g'' = .ok e := by
  unfold shareGroup
  rw [h]
  refine ⟨_, rfl, h, ?_, fun g'' => ⟨fun c hc => hc, ?_⟩⟩
  · unfold CStore.elems
    simp
  · intro e he
    unfold CStore.elems at he ⊢
    cases hx : s.es[g''.e]? with
    | none => rw [hx] at he; exact nomatch he
    | some l =>
      obtain ⟨hlt, -⟩ := List.getElem?_eq_some_iff.mp hx
      rw [List.getElem?_append_left hlt, hx]
      rw [hx] at he
      exact he
end

/-- A group to which coordinates can be added. -/
example : (⟨[[[0, 0, 0]]], [[str! "Pt"]]⟩ : CStore ℚ).coords ⟨0, 0⟩ = .ok [[0, 0, 0]] ∧
    (appendG (⟨[[[0, 0, 0]]], [[str! "Pt"]]⟩ : CStore ℚ) ⟨0, 0⟩ (some [some 1, some 0, some 0]) .missing).1.elems ⟨0, 0⟩
      = .ok [str! "Pt", str! "V"] := by decide +kernel

/-- A history of plain operations that makes three groups, with a failing `append` and `extend`. -/
example : (runGroups (K := ℚ) [.new (some [[0, 0, 0], [1 / 2, 0, 0]]) none, .append 0 (some [some 1, some 1, none]) .missing,
    .extend 0 [some [some 1, some 1, some 0], none] (some [.str (str! "Pt"), .missing]), .move 0 (some [1, 0, 0]),
    .add 0 1]).store.cs
    = [[[0, 0, 0], [1 / 2, 0, 0], [1, 1, 0]], [[1, 0, 0], [3 / 2, 0, 0], [2, 1, 0]],
       [[0, 0, 0], [1 / 2, 0, 0], [1, 1, 0], [1, 0, 0], [3 / 2, 0, 0], [2, 1, 0]]] := by decide +kernel

/-- `append` with a number as element fails after the coordinate has been appended. -/
theorem C44_bad_element_refuted : ¬ GroupsConsistent (runGroups (K := ℚ)
    [.new none none, .append 0 (some [some 0, some 0, some 0]) .other]) := by
  intro h
  obtain ⟨cs, es, h1, h2, h3⟩ := h ⟨0, 0⟩ (by decide +kernel)
  have e1 : (runGroups (K := ℚ) [.new none none, .append 0 (some [some 0, some 0, some 0]) .other]).store.coords ⟨0, 0⟩
      = .ok [[0, 0, 0]] := by decide +kernel
  have e2 : (runGroups (K := ℚ) [.new none none, .append 0 (some [some 0, some 0, some 0]) .other]).store.elems ⟨0, 0⟩
      = .ok [] := by decide +kernel
  rw [e1] at h1
  rw [e2] at h2
  rw [← Except.ok.inj h1, ← Except.ok.inj h2] at h3
  cases h3

/-- Two groups made from the same list: appending to one lengthens the coordinates of the other,
not its elements. -/
theorem C44_shared_list_refuted : ¬ GroupsConsistent (runGroups (K := ℚ)
    [.new none none, .share 0, .append 0 (some [some 0, some 0, some 0]) .missing]) := by
  intro h
  obtain ⟨cs, es, h1, h2, h3⟩ := h ⟨0, 1⟩ (by decide +kernel)
  have e1 : (runGroups (K := ℚ) [.new none none, .share 0, .append 0 (some [some 0, some 0, some 0]) .missing]).store.coords
      ⟨0, 1⟩ = .ok [[0, 0, 0]] := by decide +kernel
  have e2 : (runGroups (K := ℚ) [.new none none, .share 0, .append 0 (some [some 0, some 0, some 0]) .missing]).store.elems
      ⟨0, 1⟩ = .ok [] := by decide +kernel
  rw [e1] at h1
  rw [e2] at h2
  rw [← Except.ok.inj h1, ← Except.ok.inj h2] at h3
  cases h3

/-! ## C45 -/

section
variable {K : Type} [Field K] [LinearOrder K]

/-- The translation of a coordinate. -/
def translate (v c : List K) : List K := List.zipWith (· + ·) c v

theorem newGroup_ok (s : CStore K) {cs : List (List K)} {es : List Str} (h : cs.length = es.length) :
    ∃ s' m, newGroup s (some cs) (some es) = (s', .ok m) ∧ s'.coords m = .ok cs ∧ s'.elems m = .ok es ∧
      (∀ g l, s.coords g = .ok l → s'.coords g = .ok l) ∧ (∀ g l, s.elems g = .ok l → s'.elems g = .ok l) := by
  refine ⟨⟨s.cs ++ [cs], s.es ++ [es]⟩, ⟨s.cs.length, s.es.length⟩, ?_, ?_, ?_, ?_, ?_⟩
  · unfold newGroup
    simp only [Option.getD_some]
    rw [if_neg (by simpa using h)]
  · unfold CStore.coords
    rw [List.getElem?_concat_length]
  · unfold CStore.elems
    rw [List.getElem?_concat_length]
  · intro g l hl
    unfold CStore.coords at hl ⊢
    cases hc : s.cs[g.c]? with
    | none => rw [hc] at hl; cases hl
    | some x =>
      rw [hc] at hl
      rw [List.getElem?_append_left (List.getElem?_eq_some_iff.mp hc).1, hc]
      exact hl
  · intro g l hl
    unfold CStore.elems at hl ⊢
    cases hc : s.es[g.e]? with
    | none => rw [hc] at hl; cases hl
    | some x =>
      rw [hc] at hl
      rw [List.getElem?_append_left (List.getElem?_eq_some_iff.mp hc).1, hc]
      exact hl

theorem moveCoords_ok {cs : List (List K)} {v : List K} (hne : cs ≠ []) (h3 : ∀ c ∈ cs, c.length = 3)
    (hv : v.length = 3) : moveCoords cs v = .ok (cs.map (translate v)) := by
  cases cs with
  | nil => exact absurd rfl hne
  | cons c rest =>
    unfold moveCoords; dsimp only
    rw [if_pos]
    · apply mapM_ok_map
      intro d hd
      unfold broadcastAdd translate
      rw [if_pos (by rw [h3 d hd, hv])]
    · rw [List.all_eq_true]
      intro d hd
      rw [h3 d (by simp [hd]), h3 c (by simp)]
      rfl

/-- `move` of a group with coordinates makes a new group with every coordinate translated and the
same elements; all groups there were keep their coordinates and elements. Missing: groups without
coordinates, where it fails (`C45_empty_refuted`). -/
theorem C45_move_partial (s : CStore K) (g : Group) (cs : List (List K)) (es : List Str) (v : List K)
    (hc : s.coords g = .ok cs) (he : s.elems g = .ok es) (hl : cs.length = es.length)
    (hne : cs ≠ []) (h3 : ∀ c ∈ cs, c.length = 3) (hv : v.length = 3) :
    ∃ s' m, moveG s g (some v) = (s', .ok m) ∧ s'.coords m = .ok (cs.map (translate v)) ∧ s'.elems m = .ok es ∧
      (∀ g l, s.coords g = .ok l → s'.coords g = .ok l) ∧ (∀ g l, s.elems g = .ok l → s'.elems g = .ok l) := by
  unfold moveG
  rw [hc, he]
  simp only [Option.getD_some, moveCoords_ok hne h3 hv]
  exact newGroup_ok s (by simpa using hl)

/-- Moving twice is moving by the sum, and the opposite vector moves back. -/
theorem C45_moves_compose (cs : List (List K)) (v w : List K) (hne : cs ≠ []) (h3 : ∀ c ∈ cs, c.length = 3)
    (hv : v.length = 3) (hw : w.length = 3) :
    (∃ ds, moveCoords cs v = .ok ds ∧ moveCoords ds w = moveCoords cs (translate v w)) ∧
    (∃ ds, moveCoords cs v = .ok ds ∧ moveCoords ds (v.map (- ·)) = .ok cs) ∧
    moveCoords cs [0, 0, 0] = .ok cs := by
  have hlen : ∀ c ∈ cs.map (translate v), c.length = 3 := by
    intro c hc
    obtain ⟨d, hd, rfl⟩ := List.mem_map.mp hc
    unfold translate
    rw [List.length_zipWith, h3 d hd, hv]; rfl
  have three : ∀ l : List K, l.length = 3 → ∃ a b c, l = [a, b, c] := by
    intro l hl
    match l, hl with
    | [a, b, c], _ => exact ⟨a, b, c, rfl⟩
  obtain ⟨a, b, c, rfl⟩ := three v hv
  obtain ⟨a', b', c', rfl⟩ := three w hw
  refine ⟨⟨_, moveCoords_ok hne h3 hv, ?_⟩, ⟨_, moveCoords_ok hne h3 hv, ?_⟩, ?_⟩
  · rw [moveCoords_ok (by simpa using hne) hlen hw, moveCoords_ok hne h3 (by simp [translate]), List.map_map]
    congr 1
    apply List.map_congr_left
    intro d hd
    obtain ⟨x, y, z, rfl⟩ := three d (h3 d hd)
    simp only [Function.comp, translate, List.zipWith_cons_cons, List.zipWith_nil_left, List.cons.injEq, and_true]
    refine ⟨?_, ?_, ?_⟩ <;> ring
  · rw [moveCoords_ok (by simpa using hne) hlen (by simp), List.map_map]
    congr 1
    rw [List.map_congr_left (g := id), List.map_id]
    intro d hd
    obtain ⟨x, y, z, rfl⟩ := three d (h3 d hd)
    simp [translate]
  · rw [moveCoords_ok hne h3 rfl]
    congr 1
    rw [List.map_congr_left (g := id), List.map_id]
    intro d hd
    obtain ⟨x, y, z, rfl⟩ := three d (h3 d hd)
    simp [translate]

/-- A group without coordinates cannot be moved: the shapes `(0,)` and `(3,)` do not fit. -/
theorem C45_empty_refuted (s : CStore K) (g : Group) (es : List Str) (v : Option (List K))
    (hc : s.coords g = .ok []) (he : s.elems g = .ok es) (hv : ∀ w, v = some w → w.length = 3) :
    moveG s g v = (s, .error .ValueError) := by
  unfold moveG
  rw [hc, he]
  have : (v.getD [0, 0, 0]).length = 3 := by
    cases v with
    | none => rfl
    | some w => exact hv w rfl
  simp only [moveCoords, this]
  rfl

/-- A vector of one number is accepted and added to all three components. -/
theorem C45_short_vector (cs : List (List K)) (x : K) (hne : cs ≠ []) (h3 : ∀ c ∈ cs, c.length = 3) :
    moveCoords cs [x] = .ok (cs.map (translate [x, x, x])) := by
  cases cs with
  | nil => exact absurd rfl hne
  | cons c rest =>
    unfold moveCoords; dsimp only
    rw [if_pos]
    · apply mapM_ok_map
      intro d hd
      unfold broadcastAdd translate
      have := h3 d hd
      match d, this with
      | [p, q, r], _ => simp
    · rw [List.all_eq_true]
      intro d hd
      rw [h3 d (by simp [hd]), h3 c (by simp)]
      rfl

end

example : moveG (K := ℚ) ⟨[[[0, 0, 0], [1, 2, 3]]], [[str! "Pt", str! "O_s"]]⟩ ⟨0, 0⟩ (some [1, 0, -1 / 2])
    = (⟨[[[0, 0, 0], [1, 2, 3]], [[1, 0, -1 / 2], [2, 2, 5 / 2]]],
        [[str! "Pt", str! "O_s"], [str! "Pt", str! "O_s"]]⟩, .ok ⟨1, 1⟩) := by
  have : (moveG (K := ℚ) ⟨[[[0, 0, 0], [1, 2, 3]]], [[str! "Pt", str! "O_s"]]⟩ ⟨0, 0⟩ (some [1, 0, -1 / 2])).2 = .ok ⟨1, 1⟩ := by
    decide +kernel
  have h2 : (moveG (K := ℚ) ⟨[[[0, 0, 0], [1, 2, 3]]], [[str! "Pt", str! "O_s"]]⟩ ⟨0, 0⟩ (some [1, 0, -1 / 2])).1.cs
      = [[[0, 0, 0], [1, 2, 3]], [[1, 0, -1 / 2], [2, 2, 5 / 2]]] := by decide +kernel
  have h3 : (moveG (K := ℚ) ⟨[[[0, 0, 0], [1, 2, 3]]], [[str! "Pt", str! "O_s"]]⟩ ⟨0, 0⟩ (some [1, 0, -1 / 2])).1.es
      = [[str! "Pt", str! "O_s"], [str! "Pt", str! "O_s"]] := by decide +kernel
  rw [← this, ← h2, ← h3]

/-! ## C46 -/

section
variable {K : Type} [Field K] [LinearOrder K] [IsStrictOrderedRing K]

/-- All components differ by at most the tolerance. -/
def Near (a b : List K) : Prop := ∀ p ∈ a.zip b, |p.1 - p.2| ≤ 1 / 10000

theorem compareCoords_iff (a b : List K) : compareCoords a b = true ↔ Near a b := by
  induction a generalizing b with
  | nil => simp [compareCoords, Near]
  | cons x a ih =>
    cases b with
    | nil => simp [compareCoords, Near]
    | cons y b =>
      unfold compareCoords
      have hiff : Near (x :: a) (y :: b) ↔ |x - y| ≤ 1 / 10000 ∧ Near a b := by
        simp [Near]
      rw [hiff, ← ih b]
      unfold coordTol
      by_cases h : |x - y| > 1 / 10000
      · rw [if_pos h]
        constructor
        · intro hc; cases hc
        · intro hc; exact absurd hc.1 (not_le.mpr h)
      · rw [if_neg h]
        exact ⟨fun hc => ⟨not_lt.mp h, hc⟩, fun hc => hc.2⟩

theorem Near.refl (a : List K) : Near a a := by
  induction a with
  | nil => intro p hp; cases hp
  | cons x a ih =>
    intro p hp
    rw [List.zip_cons_cons, List.mem_cons] at hp
    rcases hp with rfl | hp
    · simp
    · exact ih p hp

theorem findEqual_some {c : List K} {ref : List (List K × Str)} {i : Nat} {x : Str} (h : findEqual c ref = some (i, x)) :
    ∃ d, ref[i]? = some (d, x) ∧ Near c d := by
  induction ref generalizing i with
  | nil => cases h
  | cons p ref ih =>
    obtain ⟨d, e⟩ := p
    unfold findEqual at h
    by_cases hc : compareCoords c d = true
    · rw [if_pos hc] at h
      cases h
      exact ⟨d, rfl, (compareCoords_iff _ _).mp hc⟩
    · rw [if_neg hc] at h
      cases hf : findEqual c ref with
      | none => rw [hf] at h; cases h
      | some q =>
        obtain ⟨j, y⟩ := q
        rw [hf] at h
        cases h
        exact ih hf

theorem findEqual_none {c : List K} {ref : List (List K × Str)} (h : findEqual c ref = none) :
    ∀ d x, (d, x) ∈ ref → ¬ Near c d := by
  induction ref with
  | nil => intro d x hd; cases hd
  | cons p ref ih =>
    obtain ⟨d, e⟩ := p
    unfold findEqual at h
    by_cases hc : compareCoords c d = true
    · rw [if_pos hc] at h; cases h
    · rw [if_neg hc] at h
      cases hf : findEqual c ref with
      | some q => rw [hf] at h; cases h
      | none =>
        intro d' x' hd
        rcases List.mem_cons.mp hd with e1 | hd
        · cases e1
          exact fun hn => hc ((compareCoords_iff _ _).mpr hn)
        · exact ih hf d' x' hd

/-- What the loop keeps: the coordinates and elements it started from come first. -/
structure AddRes (c1 : List (List K)) (e1 : List Str) (b : List (List K × Str)) (added : List (List K))
    (el1 el2 : List Str) : Prop where
  len1 : el1.length = e1.length
  len2 : el2.length = added.length
  sub : added.Sublist (b.map (·.1))
  cover : ∀ p ∈ b, ∃ d ∈ c1 ++ added, Near p.1 d
  new : ∀ c ∈ added, ∀ d ∈ c1, ¬ Near c d
  keep : ∀ (i : Nat) (x : Str), e1[i]? = some x → x ≠ str! "V" → el1[i]? = some x
  origin : ∀ (i : Nat) (x y : Str), e1[i]? = some x → el1[i]? = some y → y ≠ x →
    ∃ p ∈ b, p.2 = y ∧ ∃ d, c1[i]? = some d ∧ Near p.1 d

theorem addLoop_ok {c1 : List (List K)} {e1 : List Str} (hl : c1.length = e1.length) :
    ∀ (b done : List (List K × Str)) (added : List (List K)) (el1 el2 : List Str),
      AddRes c1 e1 done added el1 el2 → ∃ added' el1' el2',
        addLoop (c1.zip e1) (c1 ++ added) (el1 ++ el2) b = (c1 ++ added', el1' ++ el2') ∧
        AddRes c1 e1 (done ++ b) added' el1' el2' := by
  intro b
  induction b with
  | nil => intro done added el1 el2 h; exact ⟨added, el1, el2, rfl, by rwa [List.append_nil]⟩
  | cons p b ih =>
    intro done added el1 el2 h
    obtain ⟨coord, elem⟩ := p
    unfold addLoop
    cases hf : findEqual coord (c1.zip e1) with
    | none =>
      have hno := findEqual_none hf
      have hno' : ∀ d ∈ c1, ¬ Near coord d := by
        intro d hd
        obtain ⟨i, hi, rfl⟩ := List.mem_iff_getElem.mp hd
        refine hno _ (e1[i]'(by omega)) ?_
        exact List.mem_iff_getElem.mpr ⟨i, by rw [List.length_zip]; omega, List.getElem_zip⟩
      have := ih (done ++ [(coord, elem)]) (added ++ [coord]) el1 (el2 ++ [elem]) (by
        refine ⟨h.len1, by simp [h.len2], ?_, ?_, ?_, h.keep, ?_⟩
        · rw [List.map_append]
          exact List.Sublist.append h.sub (List.Sublist.refl _)
        · intro q hq
          rcases List.mem_append.mp hq with hq | hq
          · obtain ⟨d, hd, hn⟩ := h.cover q hq
            refine ⟨d, ?_, hn⟩
            rcases List.mem_append.mp hd with hd | hd
            · exact List.mem_append_left _ hd
            · exact List.mem_append_right _ (List.mem_append_left _ hd)
          · rw [List.mem_singleton] at hq
            subst hq
            exact ⟨coord, by simp, Near.refl _⟩
        · intro c hc
          rcases List.mem_append.mp hc with hc | hc
          · exact h.new c hc
          · rw [List.mem_singleton] at hc
            subst hc; exact hno'
        · intro i x y h1 h2 h3
          obtain ⟨q, hq, r⟩ := h.origin i x y h1 h2 h3
          exact ⟨q, List.mem_append_left _ hq, r⟩)
      rw [List.append_assoc] at this
      rw [List.append_assoc, List.append_assoc]
      simpa [List.append_assoc] using this
    | some q =>
      obtain ⟨i, refElem⟩ := q
      obtain ⟨d, hd, hn⟩ := findEqual_some hf
      have hz := List.getElem?_zip_eq_some.mp hd
      have hi : i < e1.length := (List.getElem?_eq_some_iff.mp hz.2).1
      dsimp only
      have hset : ∀ el1', (if elem ≠ refElem ∧ refElem = str! "V" then (el1 ++ el2).set i elem else el1 ++ el2)
          = (el1' : List Str) ++ el2 → AddRes c1 e1 (done ++ [(coord, elem)]) added el1' el2 →
          ∃ added' el1' el2',
        addLoop (c1.zip e1) (c1 ++ added)
          (if elem ≠ refElem ∧ refElem = str! "V" then (el1 ++ el2).set i elem else el1 ++ el2) b
          = (c1 ++ added', el1' ++ el2') ∧
        AddRes c1 e1 (done ++ (coord, elem) :: b) added' el1' el2' := by
        intro el1' he hr
        rw [he]
        have := ih _ _ _ _ hr
        rwa [List.append_assoc] at this
      have hcover : ∀ q ∈ done ++ [(coord, elem)], ∃ d ∈ c1 ++ added, Near q.1 d := by
        intro q hq
        rcases List.mem_append.mp hq with hq | hq
        · exact h.cover q hq
        · rw [List.mem_singleton] at hq
          subst hq
          exact ⟨d, List.mem_append_left _ (List.mem_of_getElem? hz.1), hn⟩
      have hsub : added.Sublist ((done ++ [(coord, elem)]).map (·.1)) := by
        rw [List.map_append]
        exact h.sub.trans (List.sublist_append_left _ _)
      have horig : ∀ (j : Nat) (x y : Str), e1[j]? = some x → el1[j]? = some y → y ≠ x →
          ∃ p ∈ done ++ [(coord, elem)], p.2 = y ∧ ∃ d, c1[j]? = some d ∧ Near p.1 d := by
        intro j x y h1 h2 h3
        obtain ⟨q, hq, r⟩ := h.origin j x y h1 h2 h3
        exact ⟨q, List.mem_append_left _ hq, r⟩
      by_cases hcnd : elem ≠ refElem ∧ refElem = str! "V"
      · refine hset (el1.set i elem) ?_ ⟨by simp [h.len1], h.len2, hsub, hcover, h.new, ?_, ?_⟩
        · rw [if_pos hcnd, List.set_append_left _ _ (by rw [h.len1]; exact hi)]
        · intro j x h1 h2
          have hne : i ≠ j := by
            rintro rfl
            have hz2 : e1[i]? = some refElem := hz.2
            rw [hz2] at h1
            exact h2 (Option.some.inj h1 ▸ hcnd.2)
          rw [List.getElem?_set_ne hne]
          exact h.keep j x h1 h2
        · intro j x y h1 h2 h3
          by_cases hij : i = j
          · subst hij
            rw [List.getElem?_set_self (by rw [h.len1]; exact hi)] at h2
            exact ⟨(coord, elem), by simp, Option.some.inj h2, d, hz.1, hn⟩
          · rw [List.getElem?_set_ne hij] at h2
            exact horig j x y h1 h2 h3
      · exact hset el1 (by rw [if_neg hcnd]) ⟨h.len1, h.len2, hsub, hcover, h.new, h.keep, horig⟩

/-- `a + b`: the coordinates of `a` come first, in order; those added come from `b` and none is
near one of `a`; every coordinate of `b` is near one of the result; an element of `a` is changed
only if it is empty, to the element of a coordinate of `b` at that place; the groups there were
keep their coordinates and elements. -/
theorem C46_merge (s : CStore K) (a b : Group) (c1 c2 : List (List K)) (e1 e2 : List Str)
    (h1 : s.coords a = .ok c1) (h2 : s.elems a = .ok e1) (h3 : s.coords b = .ok c2) (h4 : s.elems b = .ok e2)
    (hl1 : c1.length = e1.length) (hl2 : c2.length = e2.length) :
    ∃ s' m added el1 el2, addG s a b = (s', .ok m) ∧ s'.coords m = .ok (c1 ++ added) ∧ s'.elems m = .ok (el1 ++ el2) ∧
      (c1 ++ added).length = (el1 ++ el2).length ∧ el1.length = e1.length ∧ added.Sublist c2 ∧
      (∀ c ∈ c2, ∃ d ∈ c1 ++ added, Near c d) ∧ (∀ c ∈ added, ∀ d ∈ c1, ¬ Near c d) ∧
      (∀ (i : Nat) (x : Str), e1[i]? = some x → x ≠ str! "V" → el1[i]? = some x) ∧
      (∀ (i : Nat) (x y : Str), e1[i]? = some x → el1[i]? = some y → y ≠ x →
        ∃ p ∈ c2.zip e2, p.2 = y ∧ ∃ d, c1[i]? = some d ∧ Near p.1 d) ∧
      (∀ g l, s.coords g = .ok l → s'.coords g = .ok l) ∧ (∀ g l, s.elems g = .ok l → s'.elems g = .ok l) := by
  obtain ⟨added, el1, el2, e, r⟩ := addLoop_ok hl1 (c2.zip e2) [] [] e1 []
    ⟨rfl, rfl, by simp, fun p hp => (nomatch hp), fun c hc => (nomatch hc), fun i x h _ => h,
      fun i x y h h' hne => absurd (Option.some.inj (h.symm.trans h')).symm hne⟩
  rw [List.append_nil, List.append_nil] at e
  have hmap : (c2.zip e2).map (·.1) = c2 := List.map_fst_zip (by omega)
  obtain ⟨s', m, q1, q2, q3, q4, q5⟩ := newGroup_ok s (cs := c1 ++ added) (es := el1 ++ el2)
    (by rw [List.length_append, List.length_append, r.len1, r.len2, hl1])
  refine ⟨s', m, added, el1, el2, ?_, q2, q3, ?_, r.len1, ?_, ?_, r.new, r.keep, r.origin, q4, q5⟩
  · unfold addG
    rw [h1, h2, h3, h4]
    simp only [e]
    exact q1
  · rw [List.length_append, List.length_append, r.len1, r.len2, hl1]
  · have := r.sub
    rw [List.nil_append, hmap] at this
    exact this
  · intro c hc
    rw [← hmap] at hc
    obtain ⟨p, hp, rfl⟩ := List.mem_map.mp hc
    exact r.cover p hp

/-- `a + a` has the coordinates of `a`. -/
theorem C46_self (s : CStore K) (a : Group) (c : List (List K)) (e : List Str)
    (h1 : s.coords a = .ok c) (h2 : s.elems a = .ok e) (hl : c.length = e.length) :
    ∃ s' m, addG s a a = (s', .ok m) ∧ s'.coords m = .ok c := by
  obtain ⟨s', m, added, el1, el2, q1, q2, -, -, -, q3, -, q4, -⟩ := C46_merge s a a c c e e h1 h2 h1 h2 hl hl
  have : added = [] := by
    cases added with
    | nil => rfl
    | cons x l => exact absurd (Near.refl x) (q4 x (by simp) x (q3.subset (by simp)))
  exact ⟨s', m, q1, by rw [q2, this, List.append_nil]⟩

end

/-- Two coordinates of `b`, one near the empty first coordinate of `a`. -/
example : (addG (K := ℚ) ⟨[[[0, 0, 0], [1, 0, 0]], [[1 / 20000, 0, 0], [2, 0, 0]]],
    [[str! "V", str! "Pt"], [str! "O_s", str! "C_s"]]⟩ ⟨0, 0⟩ ⟨1, 1⟩).1.cs[2]? = some [[0, 0, 0], [1, 0, 0], [2, 0, 0]] ∧
  (addG (K := ℚ) ⟨[[[0, 0, 0], [1, 0, 0]], [[1 / 20000, 0, 0], [2, 0, 0]]],
    [[str! "V", str! "Pt"], [str! "O_s", str! "C_s"]]⟩ ⟨0, 0⟩ ⟨1, 1⟩).1.es[2]?
      = some [str! "O_s", str! "Pt", str! "C_s"] := by decide +kernel

/-! ### The theorems at these cases -/

example := C44_consistent_partial (K := ℚ) [.new (some [[0, 0, 0], [1 / 2, 0, 0]]) none, .append 0 (some [some 1, some 1, none]) .missing,
    .extend 0 [some [some 1, some 1, some 0], none] (some [.str (str! "Pt"), .missing]), .move 0 (some [1, 0, 0]), .add 0 1] (by simp [GOp.plain])

example := C44_extend (K := ℚ) ⟨[[[0, 0, 0]]], [[str! "Pt"]]⟩ ⟨0, 0⟩ [[0, 0, 0]] (some [str! "O", str! "C"]) [(1, 0, 0), (0, 1, 0)] [str! "O", str! "C"]
  (by decide +kernel) [str! "Pt"] (by decide +kernel) rfl

example := C44_share (K := ℚ) ⟨[[[0, 0, 0]]], [[str! "Pt"]]⟩ ⟨0, 0⟩ [[0, 0, 0]] (by decide +kernel)

example := C45_move_partial (K := ℚ) ⟨[[[0, 0, 0], [1, 2, 3]]], [[str! "Pt", str! "O_s"]]⟩ ⟨0, 0⟩ [[0, 0, 0], [1, 2, 3]] [str! "Pt", str! "O_s"] [1, 0, -1 / 2]
  (by decide +kernel) (by decide +kernel) rfl (by decide +kernel) (by decide +kernel) rfl

example := C45_moves_compose (K := ℚ) [[0, 0, 0], [1, 2, 3]] [1, 0, -1 / 2] [0, 1 / 3, 2] (by decide +kernel) (by decide +kernel) rfl rfl

example := C45_empty_refuted (K := ℚ) ⟨[[]], [[]]⟩ ⟨0, 0⟩ [] (some [1, 0, 0]) (by decide +kernel) (by decide +kernel) (by rintro w ⟨⟩; rfl)

example := C45_short_vector (K := ℚ) [[0, 0, 0], [1, 2, 3]] (1 / 2) (by decide +kernel) (by decide +kernel)

example := C46_merge (K := ℚ) ⟨[[[0, 0, 0], [1, 0, 0]], [[1 / 20000, 0, 0], [2, 0, 0]]], [[str! "V", str! "Pt"], [str! "O_s", str! "C_s"]]⟩ ⟨0, 0⟩ ⟨1, 1⟩
  [[0, 0, 0], [1, 0, 0]] [[1 / 20000, 0, 0], [2, 0, 0]] [str! "V", str! "Pt"] [str! "O_s", str! "C_s"]
  (by decide +kernel) (by decide +kernel) (by decide +kernel) (by decide +kernel) rfl rfl

example := C46_self (K := ℚ) ⟨[[[0, 0, 0], [1, 0, 0]]], [[str! "V", str! "Pt"]]⟩ ⟨0, 0⟩ [[0, 0, 0], [1, 0, 0]] [str! "V", str! "Pt"]
  (by decide +kernel) (by decide +kernel) rfl

end Verif
