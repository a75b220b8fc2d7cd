import Verif.Props.Coords
import Verif.Lemmas.Dict
/-
The sum of two groups on a grid (C46).
-/
set_option linter.unusedSectionVars false
namespace Verif
open Dict

section
variable {K : Type} [Field K] [LinearOrder K] [IsStrictOrderedRing K]

/-- What stands at a place after one is put over another: an empty place or none lets the other through. -/
def over : Option Str → Option Str → Option Str
  | none, y => y
  | some x, none => some x
  | some x, some y => if x = str! "V" then some y else some x

theorem over_assoc (x y z : Option Str) : over (over x y) z = over x (over y z) := by
  cases x with
  | none => rfl
  | some x =>
    cases y with
    | none => rfl
    | some y =>
      cases z with
      | none =>
        unfold over
        by_cases hx : x = str! "V" <;> simp [hx]
      | some z =>
        by_cases hx : x = str! "V"
        · by_cases hy : y = str! "V" <;> simp [over, hx, hy]
        · by_cases hy : y = str! "V" <;> simp [over, hx, hy]

theorem zip_keys {cs : List (List K)} {es : List Str} (h : cs.length = es.length) : keys (cs.zip es) = cs := by
  unfold keys
  exact List.map_fst_zip (by omega)

theorem zip_set_key {mc : List (List K)} {me : List Str} {i : Nat} {c : List K} (e : Str) (hn : mc.Nodup) (hl : mc.length = me.length)
    (h : mc[i]? = some c) : mc.zip (me.set i e) = Dict.set (mc.zip me) c e := by
  induction mc generalizing me i with
  | nil => exact nomatch h
  | cons x mc ih =>
    cases me with
    | nil => exact nomatch hl
    | cons y me =>
      cases i with
      | zero =>
        have hx : x = c := by simpa using h
        subst hx
        simp [Dict.set]
      | succ i =>
        have h' : mc[i]? = some c := by simpa using h
        have hne : x ≠ c := by
          rintro rfl
          exact (List.nodup_cons.mp hn).1 (List.mem_of_getElem? h')
        rw [List.set_cons_succ, List.zip_cons_cons, List.zip_cons_cons, Dict.set, if_neg hne,
          ih (List.nodup_cons.mp hn).2 (by simpa using hl) h']

theorem zip_append_key {mc : List (List K)} {me : List Str} {c : List K} (e : Str) (hl : mc.length = me.length) (h : c ∉ mc) :
    (mc ++ [c]).zip (me ++ [e]) = Dict.set (mc.zip me) c e := by
  induction mc generalizing me with
  | nil =>
    cases me with
    | nil => rfl
    | cons y me => exact nomatch hl
  | cons x mc ih =>
    cases me with
    | nil => exact nomatch hl
    | cons y me =>
      have h1 : x ≠ c := fun e => h (by simp [e])
      have h2 : c ∉ mc := fun e => h (by simp [e])
      rw [List.cons_append, List.cons_append, List.zip_cons_cons, List.zip_cons_cons, Dict.set, if_neg h1, ih (by simpa using hl) h2]

theorem get?_none_of {d : Dict (List K) Str} {c : List K} (h : c ∉ keys d) : get? d c = none := get?_eq_none.mpr h

theorem addLoop_grid (a : List (List K × Str)) (ha : (keys a).Nodup) :
    ∀ (b : List (List K × Str)) (added : List (List K)) (me : List Str), (keys b).Nodup →
      (∀ c ∈ keys b, ∀ d ∈ keys a, Near c d → c = d) → (keys a ++ added).Nodup → (keys a ++ added).length = me.length →
      (∀ c ∈ keys b, c ∉ added) →
      ∃ cs es, addLoop a (keys a ++ added) me b = (cs, es) ∧ cs.Nodup ∧ cs.length = es.length ∧
        ∀ c, get? (cs.zip es) c = match get? b c with
          | none => get? ((keys a ++ added).zip me) c
          | some e => match get? a c with
            | none => some e
            | some x => if x = str! "V" ∧ e ≠ str! "V" then some e else get? ((keys a ++ added).zip me) c := by
  intro b
  induction b with
  | nil => intro added me _ _ hn hl _; exact ⟨_, _, rfl, hn, hl, fun c => rfl⟩
  | cons p b ih =>
    intro added me hb hs hn hl hd
    obtain ⟨coord, elem⟩ := p
    have hb' : (keys b).Nodup := (List.nodup_cons.mp hb).2
    have hcb : coord ∉ keys b := (List.nodup_cons.mp hb).1
    have hs' : ∀ c ∈ keys b, ∀ d ∈ keys a, Near c d → c = d := fun c hc => hs c (List.mem_cons_of_mem _ hc)
    have hd' : ∀ c ∈ keys b, c ∉ added := fun c hc => hd c (List.mem_cons_of_mem _ hc)
    have hca : coord ∉ added := hd coord (by simp [keys])
    unfold addLoop
    cases hf : findEqual coord a with
    | none =>
      have hno := findEqual_none hf
      have hna : coord ∉ keys a := by
        intro hm
        obtain ⟨⟨d, x⟩, hq, rfl⟩ := List.mem_map.mp hm
        exact hno d x hq (Near.refl _)
      have hnot : coord ∉ keys a ++ added := by simp [hna, hca]
      have e1 : (keys a ++ added) ++ [coord] = keys a ++ (added ++ [coord]) := by simp
      have hn2 : (keys a ++ (added ++ [coord])).Nodup := by
        rw [← e1]
        exact List.nodup_append.mpr ⟨hn, by simp, by
          intro x hx y hy
          rw [List.mem_singleton] at hy
          subst hy
          exact fun e => hnot (e ▸ hx)⟩
      obtain ⟨cs, es, k1, k2, k3, k4⟩ := ih (added ++ [coord]) (me ++ [elem]) hb' hs' hn2
        (by rw [List.length_append] at hl; simp; omega)
        (by
          intro c hc hm
          rcases List.mem_append.mp hm with hm | hm
          · exact hd' c hc hm
          · rw [List.mem_singleton] at hm
            subst hm
            exact hcb hc)
      refine ⟨cs, es, ?_, k2, k3, ?_⟩
      · dsimp only
        rw [e1]; exact k1
      · intro c
        rw [k4 c, ← e1, zip_append_key elem hl hnot, get?_set]
        by_cases hc : coord = c
        · subst hc
          have : get? b coord = none := get?_none_of hcb
          have h2 : get? a coord = none := get?_none_of hna
          rw [this, h2]
          simp [get?]
        · rw [if_neg hc]
          have : get? ((coord, elem) :: b) c = get? b c := by rw [get?, if_neg hc]
          rw [this]
    | some q =>
      obtain ⟨i, x⟩ := q
      obtain ⟨d, hdm, hnear⟩ := findEqual_some hf
      have hdk : d ∈ keys a := List.mem_map.mpr ⟨_, List.mem_of_getElem? hdm, rfl⟩
      have hcd : coord = d := hs coord (by simp [keys]) d hdk hnear
      subst hcd
      have hax : get? a coord = some x := get?_of_mem ha (List.mem_of_getElem? hdm)
      have hik : (keys a ++ added)[i]? = some coord := by
        have : (keys a)[i]? = some coord := by unfold keys; rw [List.getElem?_map, hdm]; rfl
        rw [List.getElem?_append_left (List.getElem?_eq_some_iff.mp this).1, this]
      dsimp only
      by_cases hcond : elem ≠ x ∧ x = str! "V"
      · rw [if_pos hcond]
        obtain ⟨cs, es, k1, k2, k3, k4⟩ := ih added (me.set i elem) hb' hs' hn (by simpa using hl) hd'
        refine ⟨cs, es, k1, k2, k3, ?_⟩
        intro c
        rw [k4 c, zip_set_key elem hn hl hik, get?_set]
        by_cases hc : coord = c
        · subst hc
          rw [get?_none_of hcb]
          have : get? ((coord, elem) :: b) coord = some elem := by rw [get?, if_pos rfl]
          rw [this, hax]
          dsimp only
          rw [if_pos rfl, if_pos ⟨hcond.2, fun e => hcond.1 (e.trans hcond.2.symm)⟩]
        · rw [if_neg hc]
          have : get? ((coord, elem) :: b) c = get? b c := by rw [get?, if_neg hc]
          rw [this]
      · rw [if_neg hcond]
        obtain ⟨cs, es, k1, k2, k3, k4⟩ := ih added me hb' hs' hn hl hd'
        refine ⟨cs, es, k1, k2, k3, ?_⟩
        intro c
        rw [k4 c]
        by_cases hc : coord = c
        · subst hc
          rw [get?_none_of hcb]
          have : get? ((coord, elem) :: b) coord = some elem := by rw [get?, if_pos rfl]
          rw [this, hax]
          dsimp only
          rw [if_neg (fun h => hcond ⟨fun e => h.2 (e.trans h.1), h.1⟩)]
        · have : get? ((coord, elem) :: b) c = get? b c := by rw [get?, if_neg hc]
          rw [this]

/-- If no two coordinates of the groups are near without being the same and none stands twice in one group, `a + b` has every
coordinate of `a` or `b` once, and at each the element of `a`, or that of `b` where `a` has none or an empty place. -/
theorem C46_union (s : CStore K) (a b : Group) (c1 c2 : List (List K)) (e1 e2 : List Str)
    (h1 : s.coords a = .ok c1) (h2 : s.elems a = .ok e1) (h3 : s.coords b = .ok c2) (h4 : s.elems b = .ok e2)
    (hl1 : c1.length = e1.length) (hl2 : c2.length = e2.length) (hn1 : c1.Nodup) (hn2 : c2.Nodup)
    (hs : ∀ c ∈ c2, ∀ d ∈ c1, Near c d → c = d) :
    ∃ s' m cs es, addG s a b = (s', .ok m) ∧ s'.coords m = .ok cs ∧ s'.elems m = .ok es ∧ cs.Nodup ∧ cs.length = es.length ∧
      (∀ c, get? (cs.zip es) c = over (get? (c1.zip e1) c) (get? (c2.zip e2) c)) ∧
      (∀ c, c ∈ cs ↔ c ∈ c1 ∨ c ∈ c2) ∧
      (∀ g l, s.coords g = .ok l → s'.coords g = .ok l) ∧ (∀ g l, s.elems g = .ok l → s'.elems g = .ok l) := by
  have k1 := zip_keys hl1
  have k2 := zip_keys hl2
  obtain ⟨cs, es, q1, q2, q3, q4⟩ := addLoop_grid (c1.zip e1) (by rwa [k1]) (c2.zip e2) [] e1 (by rwa [k2]) (by rwa [k1, k2])
    (by rw [List.append_nil, k1]; exact hn1) (by rw [List.append_nil, k1]; exact hl1) (by simp)
  rw [List.append_nil, k1] at q1
  have q5 : ∀ c, get? (cs.zip es) c = over (get? (c1.zip e1) c) (get? (c2.zip e2) c) := by
    intro c
    rw [q4 c, List.append_nil, k1]
    cases hb : get? (c2.zip e2) c with
    | none => cases get? (c1.zip e1) c <;> rfl
    | some e =>
      cases ha : get? (c1.zip e1) c with
      | none => rfl
      | some x =>
        dsimp only [over]
        by_cases hx : x = str! "V"
        · by_cases he : e = str! "V"
          · rw [if_neg (fun h => h.2 he), if_pos hx, hx, he]
          · rw [if_pos ⟨hx, he⟩, if_pos hx]
        · rw [if_neg (fun h => hx h.1), if_neg hx]
  obtain ⟨s', m, r1, r2, r3, r4, r5⟩ := newGroup_ok s q3
  refine ⟨s', m, cs, es, ?_, r2, r3, q2, q3, q5, ?_, r4, r5⟩
  · unfold addG
    rw [h1, h2, h3, h4]
    dsimp only
    rw [q1]; exact r1
  · intro c
    have hk := zip_keys q3
    rw [← hk, ← get?_isSome, q5 c]
    conv_rhs => rw [← k1, ← k2, ← get?_isSome, ← get?_isSome]
    cases get? (c1.zip e1) c with
    | none => simp [over]
    | some x =>
      cases get? (c2.zip e2) c with
      | none => simp [over]
      | some y => by_cases hx : x = str! "V" <;> simp [over, hx]

end

/-- The points with coordinates in halves, on which the sites of the examples lie. -/
def HalfGrid (c : List ℚ) : Prop := ∃ i j k : ℤ, c = [(i : ℚ) / 2, (j : ℚ) / 2, (k : ℚ) / 2]

theorem halfGrid_near {c d : List ℚ} (hc : HalfGrid c) (hd : HalfGrid d) (h : Near c d) : c = d := by
  obtain ⟨i, j, k, rfl⟩ := hc
  obtain ⟨l, m, n, rfl⟩ := hd
  have one : ∀ x y : ℤ, |(x : ℚ) / 2 - (y : ℚ) / 2| ≤ 1 / 10000 → x = y := by
    intro x y hxy
    rw [abs_le] at hxy
    have h1 : ((x - y : ℤ) : ℚ) < ((1 : ℤ) : ℚ) := by push_cast; linarith [hxy.2]
    have h2 : (((-1 : ℤ)) : ℚ) < ((x - y : ℤ) : ℚ) := by push_cast; linarith [hxy.1]
    have h1' := Int.cast_lt.mp h1
    have h2' := Int.cast_lt.mp h2
    omega
  have a1 := one i l (h (_, _) (by simp))
  have a2 := one j m (h (_, _) (by simp))
  have a3 := one k n (h (_, _) (by simp))
  rw [a1, a2, a3]

/-- Two groups as in the example `get_process_definitions.py`: an atom at a top site and one at a bridge site, with two places in common. -/
def exMergeStore : CStore ℚ := ⟨[[[0, 0, 0], [1 / 2, 0, 0]], [[1 / 2, 0, 0], [0, 0, 0], [1, 0, 0]]],
  [[str! "C", str! "V"], [str! "O_s", str! "V", str! "V"]]⟩

example : (addG exMergeStore ⟨0, 0⟩ ⟨1, 1⟩).2 = .ok ⟨2, 2⟩ ∧
    (addG exMergeStore ⟨0, 0⟩ ⟨1, 1⟩).1.coords ⟨2, 2⟩ = .ok [[0, 0, 0], [1 / 2, 0, 0], [1, 0, 0]] ∧
    (addG exMergeStore ⟨0, 0⟩ ⟨1, 1⟩).1.elems ⟨2, 2⟩ = .ok [str! "C", str! "O_s", str! "V"] := by decide +kernel

example : HalfGrid [0, 0, 0] ∧ HalfGrid [1 / 2, 0, 0] ∧ HalfGrid [1, 0, 0] :=
  ⟨⟨0, 0, 0, by norm_num⟩, ⟨1, 0, 0, by norm_num⟩, ⟨2, 0, 0, by norm_num⟩⟩

end Verif
