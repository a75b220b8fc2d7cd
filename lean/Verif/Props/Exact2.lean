import Verif.Props.Kmc
/-
C53: exact values of both versions of the counting of coverages, for every lattice, and exactly when they agree.
-/
namespace Verif

section Count
variable {K : Type}

/-- The weight a type has on a lattice whose first site has number `k`: the ratio of its place in the cell for every site
that shows the type. -/
def kindSum [AddMonoid K] (r : Nat → K) (m : Nat) (t : Str) (k : Nat) (types : List Str) : K :=
  ((types.zipIdx k).map fun p => if p.1 = t then r (p.2 % m) else 0).sum

theorem kindSum_append [AddMonoid K] (r : Nat → K) (m : Nat) (t : Str) (k : Nat) (a b : List Str) :
    kindSum r m t k (a ++ b) = kindSum r m t k a + kindSum r m t (k + a.length) b := by
  unfold kindSum
  rw [List.zipIdx_append, List.map_append, List.sum_append]

theorem cppLoop_values [AddCommMonoid K] {possible : List Str} {ratios : List K} {r : Nat → K} (hm : 0 < ratios.length)
    (hr : ∀ i < ratios.length, ratios[i]? = some (r i)) (types : List Str) (k : Nat) (nt : List K) (hn : nt.length = possible.length) :
    cppLoop possible ratios k types nt = some (List.zipWith (fun t n => n + kindSum r ratios.length t k types) possible nt) := by
  induction types generalizing k nt with
  | nil =>
    unfold cppLoop
    congr 1
    apply List.ext_getElem (by simp [hn])
    intro i h1 h2
    simp [kindSum]
  | cons e types ih =>
    unfold cppLoop
    rw [hr _ (Nat.mod_lt _ hm)]
    dsimp only
    rw [ih _ _ (by simp [cppBump, hn])]
    congr 1
    apply List.ext_getElem (by simp [cppBump, hn])
    intro i h1 h2
    simp only [cppBump, List.getElem_zipWith, kindSum, List.zipIdx_cons, List.map_cons, List.sum_cons]
    by_cases he : e = possible[i]'(by simp at h2; omega)
    · rw [if_pos he, if_pos he, add_assoc]
    · rw [if_neg he, if_neg he, zero_add]

theorem indexOf?_idxOf {l : List Str} {s : Str} (h : s ∈ l) : indexOf? l s = some (l.idxOf s) := by
  induction l with
  | nil => exact absurd h (by simp)
  | cons t l ih =>
    unfold indexOf?
    by_cases he : t = s
    · rw [if_pos he, he, List.idxOf_cons_self]
    · rw [if_neg he, List.idxOf_cons_ne _ he]
      rcases List.mem_cons.mp h with e | h
      · exact absurd e.symm he
      · rw [ih h]; rfl

theorem flatten_ratios {ratios : List K} {r : Nat → K} (hr : ∀ i < ratios.length, ratios[i]? = some (r i)) (n : Nat) :
    (List.replicate n ratios).flatten = (List.range (n * ratios.length)).map fun i => r (i % ratios.length) := by
  induction n with
  | zero => simp
  | succ n ih =>
    rw [List.replicate_succ', List.flatten_append, ih, Nat.succ_mul, List.range_add, List.map_append]
    congr 1
    rw [List.flatten_singleton]
    apply List.ext_getElem (by simp)
    intro i h1 h2
    have := hr i h1
    rw [List.getElem?_eq_getElem h1] at this
    simp only [List.map_map, List.getElem_map, List.getElem_range, Function.comp, Nat.mul_add_mod_self_right]
    rw [Nat.mod_eq_of_lt h1]
    exact Option.some.inj this

theorem zip_ratios {ratios : List K} {r : Nat → K} (hr : ∀ i < ratios.length, ratios[i]? = some (r i)) (n : Nat) (types : List Str) :
    (List.replicate n ratios).flatten.zip types =
      ((types.take (n * ratios.length)).zipIdx).map fun p => (r (p.2 % ratios.length), p.1) := by
  rw [flatten_ratios hr]
  apply List.ext_getElem (by simp)
  intro i h1 h2
  simp

/-- **C53** What both versions count, for every lattice with at least one whole cell: the version in Python the sites of
whole cells, for the first entry of a type only; the compiled version all sites, for every entry of a type. Both divide by the number of whole cells. -/
theorem C53_values [Field K] (types possible : List Str) (ratios : List K) (r : Nat → K)
    (hr : ∀ i < ratios.length, ratios[i]? = some (r i)) (hm : ratios ≠ []) (hn : ratios.length ≤ types.length) :
    collectCoverages types possible ratios = .ok (possible.zipIdx.map fun p =>
      (if possible.idxOf p.1 = p.2 then kindSum r ratios.length p.1 0 (types.take (types.length / ratios.length * ratios.length)) else 0)
        / ((types.length / ratios.length : Nat) : K)) ∧
    cppCoverages types possible ratios = some (possible.map fun t =>
      kindSum r ratios.length t 0 types / ((types.length / ratios.length : Nat) : K)) := by
  have h0 : ratios.length ≠ 0 := fun h => hm (List.length_eq_zero_iff.mp h)
  have hp : 0 < ratios.length := Nat.pos_of_ne_zero h0
  have hn0 : types.length / ratios.length ≠ 0 := (Nat.div_pos hn hp).ne'
  constructor
  · unfold collectCoverages
    rw [if_neg h0]
    dsimp only
    rw [if_neg (fun h => hn0 h.1), zip_ratios hr]
    congr 1
    apply List.ext_getElem?
    intro j
    rw [List.getElem?_map, collectLoop_getElem?, List.getElem?_map, List.getElem?_zipIdx, List.getElem?_replicate]
    by_cases hj : j < possible.length
    · rw [if_pos hj, List.getElem?_eq_getElem hj]
      simp only [Option.map_some, zero_add]
      congr 2
      unfold idxWeight kindSum
      rw [List.map_map]
      by_cases hi : possible.idxOf possible[j] = j
      · rw [if_pos hi]
        congr 1
        apply List.map_congr_left
        intro p _
        have : (indexOf? possible p.1 = some j) ↔ p.1 = possible[j] := by
          constructor
          · intro h
            have := indexOf?_some h
            rw [List.getElem?_eq_getElem hj] at this
            exact (Option.some.inj this).symm
          · intro h
            rw [h, indexOf?_idxOf (List.getElem_mem hj), hi]
        by_cases e : p.1 = possible[j]
        · rw [if_pos e]; exact if_pos (this.mpr e)
        · rw [if_neg e]; exact if_neg fun h => e (this.mp h)
      · rw [if_neg hi]
        apply List.sum_eq_zero
        intro x hx
        obtain ⟨p, _, rfl⟩ := List.mem_map.mp hx
        refine if_neg fun h => hi ?_
        have h' := indexOf?_some h
        rw [List.getElem?_eq_getElem hj] at h'
        have h2 := Option.some.inj h'
        dsimp only at h h2
        rw [← h2, indexOf?_idxOf (List.getElem_mem hj)] at h
        exact Option.some.inj h
    · rw [if_neg hj, List.getElem?_eq_none (by omega)]
      rfl
  · unfold cppCoverages
    rw [if_neg h0]
    dsimp only
    rw [cppLoop_values hp hr _ _ _ (by simp)]
    dsimp only
    rw [if_neg (fun h => hn0 h.1)]
    congr 1
    apply List.ext_getElem (by simp)
    intro j h1 h2
    simp

theorem kindSum_pos [Field K] [LinearOrder K] [IsStrictOrderedRing K] {r : Nat → K} {m : Nat} (hm : 0 < m) (hr : ∀ i < m, 0 < r i)
    (t : Str) (k : Nat) (types : List Str) : 0 ≤ kindSum r m t k types ∧ (kindSum r m t k types = 0 ↔ t ∉ types) := by
  induction types generalizing k with
  | nil => exact ⟨le_refl _, by simp [kindSum]⟩
  | cons e types ih =>
    have hc : kindSum r m t k (e :: types) = (if e = t then r (k % m) else 0) + kindSum r m t (k + 1) types := by
      unfold kindSum
      rw [List.zipIdx_cons, List.map_cons, List.sum_cons]
    obtain ⟨h1, h2⟩ := ih (k + 1)
    have hk := hr (k % m) (Nat.mod_lt _ hm)
    rw [hc]
    by_cases he : e = t
    · rw [if_pos he]
      refine ⟨by linarith, ⟨fun h => by linarith, fun h => absurd (by simp [he]) h⟩⟩
    · rw [if_neg he, zero_add]
      refine ⟨h1, h2.trans ?_⟩
      simp [Ne.symm he]

/-- **C53** With positive ratios and at least one whole cell, the two versions agree exactly if no possible type stands
behind the last whole cell and no type of the lattice is listed twice. -/
theorem C53_iff [Field K] [LinearOrder K] [IsStrictOrderedRing K] (types possible : List Str) (ratios : List K)
    (hm : ratios ≠ []) (hpos : ∀ x ∈ ratios, 0 < x) (hn : ratios.length ≤ types.length) :
    (∃ l, collectCoverages types possible ratios = .ok l ∧ cppCoverages types possible ratios = some l) ↔
      (∀ t ∈ possible, t ∉ types.drop (types.length / ratios.length * ratios.length)) ∧
      ∀ t ∈ types, ∀ i j : Nat, possible[i]? = some t → possible[j]? = some t → i = j := by
  have h0 : ratios.length ≠ 0 := fun h => hm (List.length_eq_zero_iff.mp h)
  have hp : 0 < ratios.length := Nat.pos_of_ne_zero h0
  obtain ⟨r, hr⟩ : ∃ r : Nat → K, ∀ i < ratios.length, ratios[i]? = some (r i) :=
    ⟨fun i => ratios.getD i 0, fun i hi => by simp [hi]⟩
  have hrp : ∀ i < ratios.length, 0 < r i := fun i hi => hpos _ (List.mem_of_getElem? (hr i hi))
  obtain ⟨e1, e2⟩ := C53_values types possible ratios r hr hm hn
  obtain ⟨n, hnn⟩ : ∃ n, types.length / ratios.length = n := ⟨_, rfl⟩
  have hn0 : (0 : K) < (n : K) := by
    rw [← hnn]; exact_mod_cast Nat.div_pos hn hp
  rw [hnn] at e1 e2 ⊢
  have hsplit : ∀ t, kindSum r ratios.length t 0 types = kindSum r ratios.length t 0 (types.take (n * ratios.length)) +
      kindSum r ratios.length t (0 + (types.take (n * ratios.length)).length) (types.drop (n * ratios.length)) := by
    intro t
    rw [← kindSum_append, List.take_append_drop]
  rw [e1, e2]
  have hiff : (∃ l, Except.ok (ε := PyErr) (possible.zipIdx.map fun p =>
      (if possible.idxOf p.1 = p.2 then kindSum r ratios.length p.1 0 (types.take (n * ratios.length)) else 0) / (n : K)) = .ok l ∧
      some (possible.map fun t => kindSum r ratios.length t 0 types / (n : K)) = some l) ↔
      ∀ j t, possible[j]? = some t →
        (if possible.idxOf t = j then kindSum r ratios.length t 0 (types.take (n * ratios.length)) else 0) = kindSum r ratios.length t 0 types := by
    constructor
    · rintro ⟨l, h1, h2⟩ j t hj
      have h := (Except.ok.inj h1).trans (Option.some.inj h2).symm
      have := congrArg (·[j]?) h
      simp only [List.getElem?_map, List.getElem?_zipIdx, hj, Option.map_some, Nat.zero_add, Option.some.injEq] at this
      exact (div_left_inj' hn0.ne').mp this
    · intro h
      refine ⟨_, rfl, ?_⟩
      congr 1
      apply List.ext_getElem?
      intro j
      cases hj : possible[j]? with
      | none => simp [List.getElem?_zipIdx, hj]
      | some t =>
        simp only [List.getElem?_map, List.getElem?_zipIdx, hj, Option.map_some, Nat.zero_add]
        rw [h j t hj]
  rw [hiff]
  constructor
  · intro h
    constructor
    · intro t ht
      have hj := h (possible.idxOf t) t (by rw [List.getElem?_eq_getElem (List.idxOf_lt_length_iff.mpr ht)]; simp)
      rw [if_pos rfl, hsplit] at hj
      exact (kindSum_pos hp hrp t _ _).2.mp (by linarith)
    · have key : ∀ t ∈ types, ∀ i, possible[i]? = some t → possible.idxOf t = i := by
        intro t ht i hi
        by_contra hne
        have := h i t hi
        rw [if_neg hne] at this
        exact (kindSum_pos hp hrp t 0 types).2.mp this.symm ht
      intro t ht i j hi hj
      rw [← key t ht i hi, ← key t ht j hj]
  · rintro ⟨h1, h2⟩ j t hj
    have htp : t ∈ possible := List.mem_of_getElem? hj
    have hd := (kindSum_pos hp hrp t (0 + (types.take (n * ratios.length)).length) _).2.mpr (h1 t htp)
    by_cases hi : possible.idxOf t = j
    · rw [if_pos hi, hsplit, hd, add_zero]
    · rw [if_neg hi, eq_comm, (kindSum_pos hp hrp t 0 types).2]
      intro ht
      exact hi (h2 t ht _ _ (by rw [List.getElem?_eq_getElem (List.idxOf_lt_length_iff.mpr htp)]; simp) hj)

/-- A lattice of three sites in cells of two: the type behind the last whole cell is not looked for, and of the two types
listed twice none is on the lattice. -/
example : ∃ l, collectCoverages [str! "C", str! "V", str! "O"] [str! "C", str! "H", str! "H"] [(1 / 2 : ℚ), 1 / 4] = .ok l ∧
    cppCoverages [str! "C", str! "V", str! "O"] [str! "C", str! "H", str! "H"] [(1 / 2 : ℚ), 1 / 4] = some l :=
  (C53_iff _ _ _ (by decide) (by decide +kernel) (by decide)).mpr ⟨by decide, by
    intro t ht i j hi hj
    rcases List.mem_cons.mp ht with rfl | ht
    · match i, j, hi, hj with
      | 0, 0, _, _ => rfl
      | 1, _, hi, _ => exact absurd hi (by decide)
      | 2, _, hi, _ => exact absurd hi (by decide)
      | 0, 1, _, hj => exact absurd hj (by decide)
      | 0, 2, _, hj => exact absurd hj (by decide)
      | 0, j + 3, _, hj => simp at hj
      | i + 3, _, hi, _ => simp at hi
    · exfalso
      have h1 : t ∈ [str! "C", str! "H", str! "H"] := List.mem_of_getElem? hi
      exact (by decide : ∀ t ∈ [str! "V", str! "O"], t ∉ [str! "C", str! "H", str! "H"]) t ht h1⟩

/-- Without a whole cell, or without ratios, both versions fail unless no types are asked for. -/
theorem C53_small [Field K] (types possible : List Str) (ratios : List K) (h : types.length < ratios.length ∨ ratios = [])
    (hp : possible ≠ []) : collectCoverages types possible ratios = .error .ZeroDivisionError ∧ cppCoverages types possible ratios = none := by
  rcases h with h | rfl
  · have h0 : ratios.length ≠ 0 := by omega
    have hn : types.length / ratios.length = 0 := Nat.div_eq_of_lt h
    constructor
    · unfold collectCoverages
      rw [if_neg h0]
      dsimp only
      rw [hn, if_pos ⟨rfl, by simpa [collectLoop] using hp⟩]
    · unfold cppCoverages
      rw [if_neg h0]
      dsimp only
      obtain ⟨r, hr⟩ : ∃ r : Nat → K, ∀ i < ratios.length, ratios[i]? = some (r i) :=
        ⟨fun i => ratios.getD i 0, fun i hi => by simp [hi]⟩
      rw [cppLoop_values (Nat.pos_of_ne_zero h0) hr _ _ _ (by simp)]
      dsimp only
      rw [hn]
      refine if_pos ⟨rfl, fun h => ?_⟩
      have := congrArg List.length h
      exact hp (by simpa using this)
  · exact ⟨rfl, rfl⟩

example : collectCoverages [str! "C"] [str! "C"] [(1 / 2 : ℚ), 1 / 2] = .error .ZeroDivisionError ∧
    cppCoverages [str! "C"] [str! "C"] [(1 / 2 : ℚ), 1 / 2] = none := C53_small _ _ _ (by decide) (by decide)

end Count

/-! ### The theorems at these cases -/

example := C53_values [str! "C", str! "V", str! "O"] [str! "C", str! "H", str! "H"] [(1 / 2 : ℚ), 1 / 4] (fun i => if i = 0 then 1 / 2 else 1 / 4)
  (by decide +kernel) (by decide) (by decide)

end Verif
