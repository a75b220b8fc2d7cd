import Verif.Model.MapPlot
import Verif.Lemmas.Py
import Verif.Lemmas.Rxn
import Verif.Lemmas.Network
import Verif.Props.GatherMap
import Mathlib.Tactic.Linarith
import Mathlib.Tactic.Ring
import Mathlib.Tactic.FieldSimp
import Mathlib.Tactic.Positivity
/-
C115: figures of maps over two pressures.
-/
namespace Verif

/-! ### Specification -/

/-- The map with the pressures `xs` along the rows and `ys` down the columns holds the value `v` at `x` and `y`. -/
def MapHolds {K : Type} (xs ys : List K) (z : List (List K)) (x y v : K) : Prop :=
  ∃ (i j : Nat) (row : List K), xs[i]? = some x ∧ ys[j]? = some y ∧ z[j]? = some row ∧ row[i]? = some v

/-- Two pressures with no other between them. -/
def NextTo {K : Type} [LinearOrder K] (l : List K) (a b : K) : Prop := a ∈ l ∧ b ∈ l ∧ a < b ∧ ∀ c ∈ l, c ≤ a ∨ b ≤ c

/-- The value at `x` on the straight line through two points. -/
def onLine {K : Type} [Field K] (a va b vb x : K) : K := va + (x - a) / (b - a) * (vb - va)

variable {K : Type} [Field K] [LinearOrder K]

/-! ### Splines of one variable -/

/-- Nodes in increasing order. -/
def Asc {B : Type} (l : List (K × B)) : Prop := l.Pairwise fun a b => a.1 < b.1

omit [Field K] in
theorem asc_sort {B : Type} (l : List (K × B)) (h : (l.map (·.1)).Nodup) : Asc (sortNodes l) := by
  have hp : (sortNodes l).Pairwise fun a b => a.1 ≤ b.1 := by
    unfold sortNodes
    have : Std.Total (fun a b : K × B => a.1 ≤ b.1) := ⟨fun a b => le_total a.1 b.1⟩
    have : IsTrans (K × B) (fun a b => a.1 ≤ b.1) := ⟨fun a b c => le_trans⟩
    exact List.pairwise_insertionSort _ l
  have hn : (sortNodes l).Pairwise fun a b => a.1 ≠ b.1 := by
    have : ((sortNodes l).map (·.1)).Nodup := ((List.perm_insertionSort _ l).map _).nodup_iff.mpr h
    exact List.pairwise_map.mp this
  exact (hp.and hn).imp fun h => lt_of_le_of_ne h.1 h.2

omit [Field K] in
theorem mem_sortNodes {B : Type} {l : List (K × B)} {n : K × B} : n ∈ sortNodes l ↔ n ∈ l := List.mem_insertionSort _

omit [Field K] in
theorem asc_ext {B : Type} {l l' : List (K × B)} (h : Asc l) (h' : Asc l') (hm : ∀ n, n ∈ l ↔ n ∈ l') : l = l' := by
  have nd : ∀ {l : List (K × B)}, Asc l → l.Nodup := fun h => h.imp fun q e => absurd q (by rw [e]; exact lt_irrefl _)
  refine List.Perm.eq_of_pairwise (le := fun a b : K × B => a.1 < b.1) ?_ h h' ((List.perm_ext_iff_of_nodup (nd h) (nd h')).mpr hm)
  intro a b _ _ h1 h2
  exact absurd h1 (not_lt.mpr h2.le)

variable [IsStrictOrderedRing K]

omit [IsStrictOrderedRing K] in
theorem interp1_first (n : K × K) (l : List (K × K)) (x : K) (h : x ≤ n.1) : interp1 (n :: l) x = .ok n.2 := by
  cases l with
  | nil => rfl
  | cons n1 l => unfold interp1; rw [if_pos h]

omit [IsStrictOrderedRing K] in
theorem interp1_node {l : List (K × K)} (h : Asc l) {x v : K} (hx : (x, v) ∈ l) : interp1 l x = .ok v := by
  induction l with
  | nil => cases hx
  | cons n l ih =>
    rcases List.mem_cons.mp hx with rfl | hx
    · exact interp1_first _ _ _ le_rfl
    · cases l with
      | nil => cases hx
      | cons n1 l =>
        have hlt := (List.pairwise_cons.mp h).1 _ hx
        have ha := (List.pairwise_cons.mp h).2
        unfold interp1
        rw [if_neg (not_le.mpr hlt)]
        rcases List.mem_cons.mp hx with rfl | hx'
        · rw [if_pos le_rfl]
          have : (x - n.1) ≠ 0 := sub_ne_zero.mpr hlt.ne'
          rw [div_self this]
          congr 1
          ring
        · rw [if_neg (not_le.mpr ((List.pairwise_cons.mp ha).1 _ hx'))]
          exact ih ha hx

theorem interp1_between {l : List (K × K)} (h : Asc l) (hl : l ≠ []) (x : K) :
    ∃ v, interp1 l x = .ok v ∧ ∀ lo hi, (∀ n ∈ l, lo ≤ n.2 ∧ n.2 ≤ hi) → lo ≤ v ∧ v ≤ hi := by
  induction l with
  | nil => exact absurd rfl hl
  | cons n l ih =>
    cases l with
    | nil => exact ⟨n.2, rfl, fun lo hi hb => hb n (by simp)⟩
    | cons n1 l =>
      unfold interp1
      by_cases h1 : x ≤ n.1
      · rw [if_pos h1]
        exact ⟨_, rfl, fun lo hi hb => hb n (by simp)⟩
      rw [if_neg h1]
      by_cases h2 : x ≤ n1.1
      · rw [if_pos h2]
        refine ⟨_, rfl, fun lo hi hb => ?_⟩
        obtain ⟨a1, a2⟩ := hb n (by simp)
        obtain ⟨b1, b2⟩ := hb n1 (by simp)
        have hd : 0 < n1.1 - n.1 := sub_pos.mpr ((List.pairwise_cons.mp h).1 n1 (by simp))
        have t0 : 0 ≤ (x - n.1) / (n1.1 - n.1) := div_nonneg (by linarith [not_le.mp h1]) hd.le
        have t1 : (x - n.1) / (n1.1 - n.1) ≤ 1 := (div_le_one hd).mpr (by linarith)
        generalize (x - n.1) / (n1.1 - n.1) = t at t0 t1
        have e : n.2 + t * (n1.2 - n.2) = (1 - t) * n.2 + t * n1.2 := by ring
        rw [e]
        have s0 : 0 ≤ 1 - t := by linarith
        constructor
        · have := add_le_add (mul_le_mul_of_nonneg_left a1 s0) (mul_le_mul_of_nonneg_left b1 t0)
          linarith
        · have := add_le_add (mul_le_mul_of_nonneg_left a2 s0) (mul_le_mul_of_nonneg_left b2 t0)
          linarith
      · rw [if_neg h2]
        obtain ⟨v, e, hv⟩ := ih (List.pairwise_cons.mp h).2 (by simp)
        exact ⟨v, e, fun lo hi hb => hv lo hi fun m hm => hb m (List.mem_cons_of_mem _ hm)⟩

omit [IsStrictOrderedRing K] in
theorem interp1_cell {l : List (K × K)} (h : Asc l) {a b va vb x : K} (ha : (a, va) ∈ l) (hb : (b, vb) ∈ l) (hn : NextTo (l.map (·.1)) a b)
    (h1 : a ≤ x) (h2 : x ≤ b) : interp1 l x = .ok (onLine a va b vb x) := by
  induction l with
  | nil => cases ha
  | cons n l ih =>
    obtain ⟨hn1, hn2, hab, hn3⟩ := hn
    have hd : b - a ≠ 0 := sub_ne_zero.mpr hab.ne'
    rcases eq_or_lt_of_le h1 with rfl | h1'
    · rw [interp1_node h ha]
      unfold onLine
      congr 1
      rw [sub_self]
      ring
    have hbl : (b, vb) ∈ l := by
      rcases List.mem_cons.mp hb with hb | hb
      · subst hb
        rcases List.mem_cons.mp ha with ha | ha
        · cases ha; exact absurd hab (lt_irrefl _)
        · exact absurd ((List.pairwise_cons.mp h).1 _ ha) (not_lt.mpr hab.le)
      · exact hb
    cases l with
    | nil => cases hbl
    | cons n1 l =>
      have hs := List.pairwise_cons.mp h
      rcases List.mem_cons.mp ha with ha | ha
      · subst ha
        have hn1b : n1.1 = b := by
          have h5 : a < n1.1 := hs.1 n1 (by simp)
          rcases hn3 n1.1 (by simp) with h6 | h6
          · exact absurd h5 (not_lt.mpr h6)
          · rcases List.mem_cons.mp hbl with h7 | h7
            · rw [← h7]
            · exact absurd ((List.pairwise_cons.mp hs.2).1 _ h7) (not_lt.mpr h6)
        have hn1v : n1 = (b, vb) := by
          rcases List.mem_cons.mp hbl with h7 | h7
          · exact h7.symm
          · exact absurd ((List.pairwise_cons.mp hs.2).1 _ h7) (by rw [hn1b]; exact lt_irrefl _)
        subst hn1v
        unfold interp1
        rw [if_neg (not_le.mpr h1'), if_pos h2]
        rfl
      · have hna : n.1 < a := hs.1 _ ha
        unfold interp1
        rw [if_neg (not_le.mpr (hna.trans h1'))]
        have hax : ¬ x ≤ n1.1 := by
          rcases List.mem_cons.mp ha with h7 | h7
          · rw [← h7]; exact not_le.mpr h1'
          · exact not_le.mpr (((List.pairwise_cons.mp hs.2).1 _ h7).trans h1')
        rw [if_neg hax]
        refine ih hs.2 ha hbl ⟨List.mem_map.mpr ⟨_, ha, rfl⟩, List.mem_map.mpr ⟨_, hbl, rfl⟩, hab, fun c hc => hn3 c (by rw [List.map_cons]; exact List.mem_cons_of_mem _ hc)⟩

omit [IsStrictOrderedRing K] in
theorem interp1_last {l : List (K × K)} (h : Asc l) (hl : l ≠ []) {x x' : K} (hx : ∀ n ∈ l, n.1 ≤ x) (hx' : ∀ n ∈ l, n.1 ≤ x') : interp1 l x = interp1 l x' := by
  induction l with
  | nil => rfl
  | cons n l ih =>
    cases l with
    | nil => rfl
    | cons n1 l =>
      have hlt := (List.pairwise_cons.mp h).1 n1 (by simp)
      have key : ∀ x, (∀ m ∈ n :: n1 :: l, m.1 ≤ x) → interp1 (n :: n1 :: l) x = interp1 (n1 :: l) x := by
        intro x hx
        have h1 : n1.1 ≤ x := hx n1 (by simp)
        conv_lhs => unfold interp1
        rw [if_neg (not_le.mpr (hlt.trans_le h1))]
        split
        · rename_i h2
          have e : x = n1.1 := le_antisymm h2 h1
          rw [interp1_first n1 l x h2, e, div_self (sub_ne_zero.mpr hlt.ne')]
          congr 1
          ring
        · rfl
      rw [key x hx, key x' hx']
      exact ih (List.pairwise_cons.mp h).2 (by simp) (fun m hm => hx m (List.mem_cons_of_mem _ hm)) (fun m hm => hx' m (List.mem_cons_of_mem _ hm))

omit [IsStrictOrderedRing K] in
theorem interp1_sub {B : Type} (N : List (K × B)) (f g : B → K) (x a b : K)
    (ha : interp1 (N.map fun n => (n.1, f n.2)) x = .ok a) (hb : interp1 (N.map fun n => (n.1, g n.2)) x = .ok b) :
    interp1 (N.map fun n => (n.1, f n.2 - g n.2)) x = .ok (a - b) := by
  induction N with
  | nil => cases ha
  | cons n N ih =>
    cases N with
    | nil => cases ha; cases hb; rfl
    | cons n1 N =>
      simp only [List.map_cons] at ha hb ih ⊢
      unfold interp1 at ha hb ⊢
      dsimp only at ha hb ⊢
      split
      · rename_i h; rw [if_pos h] at ha hb; cases ha; cases hb; rfl
      · rename_i h; rw [if_neg h] at ha hb
        split
        · rename_i h; rw [if_pos h] at ha hb; cases ha; cases hb; congr 1; ring
        · rename_i h; rw [if_neg h] at ha hb; exact ih ha hb

/-! ### Maps -/

omit [IsStrictOrderedRing K] [Field K] in
theorem fit_inv {xs ys : List K} {z : List (List K)} {m : MapFit K} (h : fitMap xs ys z = .ok m) :
    z.length = ys.length ∧ (∀ r ∈ z, r.length = xs.length) ∧ xs.Nodup ∧ ys.Nodup ∧ 2 ≤ xs.length ∧ 2 ≤ ys.length ∧
      m = sortNodes (ys.zip (z.map fun r => sortNodes (xs.zip r))) := by
  unfold fitMap at h
  split at h
  · cases h
  rename_i h1
  split at h
  · cases h
  rename_i h2
  cases h
  rw [not_or, not_not, not_not, List.all_eq_true] at h1
  rw [not_or, not_or, not_or, not_not, not_not, not_lt, not_lt] at h2
  exact ⟨h1.1, fun r hr => by simpa using h1.2 r hr, h2.1, h2.2.1, h2.2.2.1, h2.2.2.2, rfl⟩

omit [IsStrictOrderedRing K] [Field K] in
theorem mem_zip_iff {A B : Type} {l : List A} {l' : List B} {a : A} {b : B} : (a, b) ∈ l.zip l' ↔ ∃ i : Nat, l[i]? = some a ∧ l'[i]? = some b := by
  rw [List.mem_iff_getElem?]
  simp only [List.getElem?_zip_eq_some]

omit [IsStrictOrderedRing K] [Field K] in
/-- The rows of a map ready to be drawn. -/
theorem fit_rows {xs ys : List K} {z : List (List K)} {m : MapFit K} (h : fitMap xs ys z = .ok m) : Asc m ∧ m ≠ [] ∧
    (∀ r ∈ m, Asc r.2 ∧ r.2 ≠ []) ∧
    (∀ y row, (y, row) ∈ m ↔ ∃ (j : Nat) (l : List K), ys[j]? = some y ∧ z[j]? = some l ∧ row = sortNodes (xs.zip l)) ∧
    (∀ l ∈ z, (xs.zip l).map (·.1) = xs) := by
  obtain ⟨h1, h2, h3, h4, h5, h6, rfl⟩ := fit_inv h
  have hz : ∀ l ∈ z, (xs.zip l).map (·.1) = xs := fun l hl => List.map_fst_zip (by rw [h2 l hl])
  have hy : (ys.zip (z.map fun r => sortNodes (xs.zip r))).map (·.1) = ys := List.map_fst_zip (by rw [List.length_map, h1])
  have mem : ∀ y row, (y, row) ∈ sortNodes (ys.zip (z.map fun r => sortNodes (xs.zip r))) ↔
      ∃ (j : Nat) (l : List K), ys[j]? = some y ∧ z[j]? = some l ∧ row = sortNodes (xs.zip l) := by
    intro y row
    rw [mem_sortNodes, mem_zip_iff]
    constructor
    · rintro ⟨j, a, b⟩
      rw [List.getElem?_map] at b
      obtain ⟨l, e, rfl⟩ := Option.map_eq_some_iff.mp b
      exact ⟨j, l, a, e, rfl⟩
    · rintro ⟨j, l, a, e, rfl⟩
      exact ⟨j, a, by rw [List.getElem?_map, e]; rfl⟩
  refine ⟨asc_sort _ (by rw [hy]; exact h4), ?_, ?_, mem, hz⟩
  · intro e
    have := congrArg List.length e
    unfold sortNodes at this
    rw [List.length_insertionSort, List.length_zip, List.length_map, h1] at this
    simp at this
    rw [this] at h6
    simp at h6
  · rintro ⟨y, row⟩ hr
    obtain ⟨j, l, a, e, rfl⟩ := (mem y row).mp hr
    have hl := List.mem_of_getElem? e
    refine ⟨asc_sort _ (by rw [hz l hl]; exact h3), fun e => ?_⟩
    have := congrArg List.length e
    unfold sortNodes at this
    rw [List.length_insertionSort, List.length_zip, h2 l hl] at this
    simp at this
    rw [this] at h5
    simp at h5

omit [IsStrictOrderedRing K] in
theorem at_eq (m : MapFit K) (x y : K) (f : K × List (K × K) → K) (h : ∀ r ∈ m, interp1 r.2 x = .ok (f r)) :
    m.at x y = interp1 (m.map fun r => (r.1, f r)) y := by
  unfold MapFit.at
  rw [mapM_ok (g := fun r => (r.1, f r)) fun r hr => by rw [h r hr]; rfl]
  rfl

/-- A value of every row. -/
theorem rows_values {xs ys : List K} {z : List (List K)} {m : MapFit K} (h : fitMap xs ys z = .ok m) (x : K) :
    ∃ f : K × List (K × K) → K, ∀ r ∈ m, interp1 r.2 x = .ok (f r) := by
  obtain ⟨-, -, h3, -⟩ := fit_rows h
  refine ⟨fun r => match interp1 r.2 x with | .ok v => v | .error _ => 0, fun r hr => ?_⟩
  obtain ⟨v, e, -⟩ := interp1_between (h3 r hr).1 (h3 r hr).2 x
  dsimp only
  rw [e]

omit [IsStrictOrderedRing K] [Field K] in
theorem asc_map {B C : Type} {l : List (K × B)} (h : Asc l) (f : K × B → C) : Asc (l.map fun r => (r.1, f r)) := List.pairwise_map.mpr h

omit [IsStrictOrderedRing K] [Field K] in
/-- **C115** For which data a map can be drawn: a row for each pressure of oxygen, in it a value for each pressure of carbon monoxide, at least two of both pressures and none twice. -/
theorem C115_fits (xs ys : List K) (z : List (List K)) : (∃ m, fitMap xs ys z = .ok m) ↔
    z.length = ys.length ∧ (∀ r ∈ z, r.length = xs.length) ∧ xs.Nodup ∧ ys.Nodup ∧ 2 ≤ xs.length ∧ 2 ≤ ys.length := by
  constructor
  · rintro ⟨m, h⟩
    obtain ⟨h1, h2, h3, h4, h5, h6, -⟩ := fit_inv h
    exact ⟨h1, h2, h3, h4, h5, h6⟩
  · rintro ⟨h1, h2, h3, h4, h5, h6⟩
    refine ⟨sortNodes (ys.zip (z.map fun r => sortNodes (xs.zip r))), ?_⟩
    unfold fitMap
    rw [if_neg, if_neg]
    · rw [not_or, not_or, not_or, not_not, not_not, not_lt, not_lt]
      exact ⟨h3, h4, h5, h6⟩
    · rw [not_or, not_not, not_not, List.all_eq_true]
      exact ⟨h1, fun r hr => by simpa using h2 r hr⟩

/-- **C115** A map shows at the pressures of each run the value of that run. -/
theorem C115_nodes {xs ys : List K} {z : List (List K)} {m : MapFit K} (h : fitMap xs ys z = .ok m) {x y v : K} (hv : MapHolds xs ys z x y v) :
    m.at x y = .ok v := by
  obtain ⟨f, hf⟩ := rows_values h x
  obtain ⟨h1, h2, h3, h4, -⟩ := fit_rows h
  rw [at_eq m x y f hf]
  obtain ⟨i, j, row, e1, e2, e3, e4⟩ := hv
  have hm : (y, sortNodes (xs.zip row)) ∈ m := (h4 _ _).mpr ⟨j, row, e2, e3, rfl⟩
  refine interp1_node (asc_map h1 f) (List.mem_map.mpr ⟨_, hm, ?_⟩)
  have hn : (x, v) ∈ sortNodes (xs.zip row) := mem_sortNodes.mpr (mem_zip_iff.mpr ⟨i, e1, e4⟩)
  have := hf _ hm
  rw [interp1_node (h3 _ hm).1 hn] at this
  rw [← Except.ok.inj this]

/-- **C115** Between the pressures of four neighbouring runs, the value shown is that of straight lines along the rows, and a straight line between the rows. -/
theorem C115_cell {xs ys : List K} {z : List (List K)} {m : MapFit K} (h : fitMap xs ys z = .ok m) {x0 x1 y0 y1 v00 v01 v10 v11 x y : K}
    (hx : NextTo xs x0 x1) (hy : NextTo ys y0 y1) (a00 : MapHolds xs ys z x0 y0 v00) (a10 : MapHolds xs ys z x1 y0 v10)
    (a01 : MapHolds xs ys z x0 y1 v01) (a11 : MapHolds xs ys z x1 y1 v11) (hx0 : x0 ≤ x) (hx1 : x ≤ x1) (hy0 : y0 ≤ y) (hy1 : y ≤ y1) :
    m.at x y = .ok (onLine y0 (onLine x0 v00 x1 v10 x) y1 (onLine x0 v01 x1 v11 x) y) := by
  obtain ⟨f, hf⟩ := rows_values h x
  obtain ⟨h1, h2, h3, h4, h5⟩ := fit_rows h
  obtain ⟨k1, k2, k3, k4, -⟩ := fit_inv h
  rw [at_eq m x y f hf]
  have row : ∀ {yy va vb : K}, MapHolds xs ys z x0 yy va → MapHolds xs ys z x1 yy vb → (yy, onLine x0 va x1 vb x) ∈ m.map fun r => (r.1, f r) := by
    rintro yy va vb ⟨i, j, r, e1, e2, e3, e4⟩ ⟨i', j', r', e1', e2', e3', e4'⟩
    have hj : j = j' := by
      have := (List.nodup_iff_getElem?_ne_getElem?.mp k4)
      by_contra hne
      have hl : ∀ {n : Nat}, ys[n]? = some yy → n < ys.length := fun e => (List.getElem?_eq_some_iff.mp e).1
      rcases lt_or_gt_of_ne hne with q | q
      · exact this j j' q (hl e2') (e2.trans e2'.symm)
      · exact this j' j q (hl e2) (e2'.trans e2.symm)
    subst hj
    rw [e3] at e3'
    cases e3'
    have hm : (yy, sortNodes (xs.zip r)) ∈ m := (h4 _ _).mpr ⟨j, r, e2, e3, rfl⟩
    refine List.mem_map.mpr ⟨_, hm, ?_⟩
    have hk : ∀ c, c ∈ (sortNodes (xs.zip r)).map (·.1) ↔ c ∈ xs := by
      intro c
      conv_rhs => rw [← h5 r (List.mem_of_getElem? e3)]
      exact ((List.perm_insertionSort _ (xs.zip r)).map _).mem_iff
    have := interp1_cell (h3 _ hm).1 (mem_sortNodes.mpr (mem_zip_iff.mpr ⟨i, e1, e4⟩)) (mem_sortNodes.mpr (mem_zip_iff.mpr ⟨i', e1', e4'⟩))
      ⟨(hk _).mpr hx.1, (hk _).mpr hx.2.1, hx.2.2.1, fun c hc => hx.2.2.2 c ((hk c).mp hc)⟩ hx0 hx1
    rw [hf _ hm] at this
    rw [Except.ok.inj this]
  have hk : ∀ c, c ∈ (m.map fun r => (r.1, f r)).map (·.1) ↔ c ∈ ys := by
    intro c
    rw [List.map_map]
    constructor
    · intro hc
      obtain ⟨⟨yy, rr⟩, hr, rfl⟩ := List.mem_map.mp hc
      obtain ⟨j, l, e, -⟩ := (h4 _ _).mp hr
      exact List.mem_of_getElem? e
    · intro hc
      obtain ⟨j, e⟩ := List.mem_iff_getElem?.mp hc
      have hj : j < z.length := by rw [k1]; exact (List.getElem?_eq_some_iff.mp e).1
      exact List.mem_map.mpr ⟨_, (h4 c _).mpr ⟨j, z[j], e, List.getElem?_eq_getElem hj, rfl⟩, rfl⟩
  exact interp1_cell (asc_map h1 f) (row a00 a10) (row a01 a11) ⟨(hk _).mpr hy.1, (hk _).mpr hy.2.1, hy.2.2.1, fun c hc => hy.2.2.2 c ((hk c).mp hc)⟩ hy0 hy1

/-- **C115** Everywhere in a figure, also outside the pressures of the runs, the value shown lies between the least and the greatest value of the runs. -/
theorem C115_between {xs ys : List K} {z : List (List K)} {m : MapFit K} (h : fitMap xs ys z = .ok m) (x y : K) :
    ∃ v, m.at x y = .ok v ∧ ∀ lo hi, (∀ r ∈ z, ∀ w ∈ r, lo ≤ w ∧ w ≤ hi) → lo ≤ v ∧ v ≤ hi := by
  obtain ⟨f, hf⟩ := rows_values h x
  obtain ⟨h1, h2, h3, h4, -⟩ := fit_rows h
  rw [at_eq m x y f hf]
  obtain ⟨v, e, hv⟩ := interp1_between (asc_map h1 f) (by simpa using h2) y
  refine ⟨v, e, fun lo hi hb => hv lo hi fun n hn => ?_⟩
  obtain ⟨⟨yy, rr⟩, hr, rfl⟩ := List.mem_map.mp hn
  obtain ⟨w, ew, hw⟩ := interp1_between (h3 _ hr).1 (h3 _ hr).2 x
  rw [hf _ hr] at ew
  rw [Except.ok.inj ew]
  refine hw lo hi fun n hn => ?_
  obtain ⟨j, l, -, e3, rfl⟩ := (h4 _ _).mp hr
  obtain ⟨n1, n2⟩ := n
  obtain ⟨i, -, e4⟩ := mem_zip_iff.mp (mem_sortNodes.mp hn)
  exact hb l (List.mem_of_getElem? e3) n2 (List.mem_of_getElem? e4)

/-- **C115** To the left of all pressures of carbon monoxide a figure is that of the smallest one, to the right that of the greatest one. -/
theorem C115_outside {xs ys : List K} {z : List (List K)} {m : MapFit K} (h : fitMap xs ys z = .ok m) (x x' y : K)
    (hx : (∀ c ∈ xs, x ≤ c ∧ x' ≤ c) ∨ ∀ c ∈ xs, c ≤ x ∧ c ≤ x') : m.at x y = m.at x' y := by
  obtain ⟨h1, h2, h3, h4, h5⟩ := fit_rows h
  have row : ∀ r ∈ m, interp1 r.2 x = interp1 r.2 x' := by
    rintro ⟨yy, rr⟩ hr
    obtain ⟨j, l, -, e3, e5⟩ := (h4 _ _).mp hr
    have hk : ∀ n ∈ rr, n.1 ∈ xs := by
      rintro ⟨n1, n2⟩ hn
      rw [e5] at hn
      obtain ⟨i, e, -⟩ := mem_zip_iff.mp (mem_sortNodes.mp hn)
      exact List.mem_of_getElem? e
    rcases hx with hx | hx
    · cases rr with
      | nil => exact absurd rfl (h3 _ hr).2
      | cons n l =>
        have := hx n.1 (hk n (by simp))
        dsimp only
        rw [interp1_first n l x this.1, interp1_first n l x' this.2]
    · exact interp1_last (h3 _ hr).1 (h3 _ hr).2 (fun n hn => (hx _ (hk n hn)).1) (fun n hn => (hx _ (hk n hn)).2)
  obtain ⟨f, hf⟩ := rows_values h x
  rw [at_eq m x y f hf, at_eq m x' y f fun r hr => by rw [← row r hr]; exact hf r hr]

omit [IsStrictOrderedRing K] [Field K] in
/-- **C115** The order in which the runs are listed does not matter: two sets of data that hold the same values give the same figure. -/
theorem C115_order {xs ys xs' ys' : List K} {z z' : List (List K)} {m m' : MapFit K} (h : fitMap xs ys z = .ok m) (h' : fitMap xs' ys' z' = .ok m')
    (hs : ∀ x y v, MapHolds xs ys z x y v ↔ MapHolds xs' ys' z' x y v) : m = m' := by
  have key : ∀ {xs ys xs' ys' : List K} {z z' : List (List K)} {m m' : MapFit K}, fitMap xs ys z = .ok m → fitMap xs' ys' z' = .ok m' →
      (∀ x y v, MapHolds xs ys z x y v ↔ MapHolds xs' ys' z' x y v) → ∀ n ∈ m, n ∈ m' := by
    clear h h' hs
    rintro xs ys xs' ys' z z' m m' h h' hs ⟨y, row⟩ hn
    obtain ⟨h1, h2, h3, h4, h5⟩ := fit_rows h
    obtain ⟨h1', h2', h3', h4', h5'⟩ := fit_rows h'
    obtain ⟨k1, k2, k3, k4, k5, -⟩ := fit_inv h
    obtain ⟨k1', k2', k3', k4', k5', -⟩ := fit_inv h'
    obtain ⟨j, l, e2, e3, rfl⟩ := (h4 _ _).mp hn
    have hl := k2 l (List.mem_of_getElem? e3)
    have x0 : 0 < xs.length := by omega
    obtain ⟨i', j', l', a1, a2, a3, a4⟩ := (hs xs[0] y (l[0]'(by omega))).mp
      ⟨0, j, l, List.getElem?_eq_getElem x0, e2, e3, List.getElem?_eq_getElem (by omega)⟩
    have uniq : ∀ {ys : List K}, ys.Nodup → ∀ {j j' : Nat} {y : K}, ys[j]? = some y → ys[j']? = some y → j = j' := by
      intro ys hn j j' y e e'
      by_contra hne
      have hl : ∀ {n : Nat}, ys[n]? = some y → n < ys.length := fun e => (List.getElem?_eq_some_iff.mp e).1
      have := List.nodup_iff_getElem?_ne_getElem?.mp hn
      rcases lt_or_gt_of_ne hne with q | q
      · exact this j j' q (hl e') (e.trans e'.symm)
      · exact this j' j q (hl e) (e'.trans e.symm)
    refine (h4' _ _).mpr ⟨j', l', a2, a3, ?_⟩
    refine asc_ext (asc_sort _ (by rw [h5 l (List.mem_of_getElem? e3)]; exact k3)) (asc_sort _ (by rw [h5' l' (List.mem_of_getElem? a3)]; exact k3')) ?_
    rintro ⟨x, v⟩
    rw [mem_sortNodes, mem_sortNodes, mem_zip_iff, mem_zip_iff]
    constructor
    · rintro ⟨i, b1, b2⟩
      obtain ⟨i2, j2, l2, c1, c2, c3, c4⟩ := (hs x y v).mp ⟨i, j, l, b1, e2, e3, b2⟩
      have := uniq k4' c2 a2
      subst this
      rw [a3] at c3
      cases c3
      exact ⟨i2, c1, c4⟩
    · rintro ⟨i, b1, b2⟩
      obtain ⟨i2, j2, l2, c1, c2, c3, c4⟩ := (hs x y v).mpr ⟨i, j', l', b1, a2, a3, b2⟩
      have := uniq k4 c2 e2
      subst this
      rw [e3] at c3
      cases c3
      exact ⟨i2, c1, c4⟩
  exact asc_ext (fit_rows h).1 (fit_rows h').1 fun n => ⟨key h h' hs n, key h' h (fun x y v => (hs x y v).symm) n⟩

omit [IsStrictOrderedRing K] [Field K] in
theorem sortNodes_map {B C : Type} (l : List (K × B)) (f : B → C) : sortNodes (l.map fun n => (n.1, f n.2)) = (sortNodes l).map fun n => (n.1, f n.2) :=
  (List.map_insertionSort (r := fun a b : K × B => a.1 ≤ b.1) (s := fun a b : K × C => a.1 ≤ b.1) (fun n : K × B => (n.1, f n.2)) l (fun _ _ _ _ => Iff.rfl)).symm

theorem zip_zipWith {A B C D : Type} (xs : List D) (f : A → B → C) : ∀ (a : List A) (b : List B),
    xs.zip (List.zipWith f a b) = (xs.zip (a.zip b)).map fun n => (n.1, f n.2.1 n.2.2) := by
  induction xs with
  | nil => intro a b; simp
  | cons x xs ih =>
    intro a b
    cases a with
    | nil => simp
    | cons a1 a =>
      cases b with
      | nil => simp
      | cons b1 b => simp [ih]

theorem zip_fst_of {A B D : Type} (xs : List D) : ∀ (a : List A) (b : List B), a.length = b.length →
    xs.zip a = (xs.zip (a.zip b)).map fun n => (n.1, n.2.1) := by
  intro a b h
  have := zip_zipWith xs (fun x (_ : B) => x) a b
  rwa [show List.zipWith (fun x (_ : B) => x) a b = a from ?_] at this
  clear this
  induction a generalizing b with
  | nil => simp
  | cons a1 a ih =>
    cases b with
    | nil => simp at h
    | cons b1 b => simp [ih b (by simpa using h)]

theorem zip_snd_of {A B D : Type} (xs : List D) : ∀ (a : List A) (b : List B), a.length = b.length →
    xs.zip b = (xs.zip (a.zip b)).map fun n => (n.1, n.2.2) := by
  intro a b h
  have := zip_zipWith xs (fun (_ : A) x => x) a b
  rwa [show List.zipWith (fun (_ : A) x => x) a b = b from ?_] at this
  clear this
  induction a generalizing b with
  | nil => cases b with
    | nil => rfl
    | cons _ _ => simp at h
  | cons a1 a ih =>
    cases b with
    | nil => simp at h
    | cons b1 b => simp [ih b (by simpa using h)]

/-- **C115** The map of the differences of coverages shows everywhere the difference of the two maps, so that the boundary of phases is drawn where both coverages are shown as equal. -/
theorem C115_difference {xs ys : List K} {a b d : List (List K)} {ma mb : MapFit K} (ha : fitMap xs ys a = .ok ma) (hb : fitMap xs ys b = .ok mb)
    (hd : subTables a b = .ok d) : ∃ m, fitMap xs ys d = .ok m ∧ ∀ x y va vb, ma.at x y = .ok va → mb.at x y = .ok vb → m.at x y = .ok (va - vb) := by
  obtain ⟨a1, a2, a3, a4, a5, a6, a7⟩ := fit_inv ha
  obtain ⟨b1, b2, -, -, -, -, b7⟩ := fit_inv hb
  unfold subTables at hd
  split at hd
  swap
  · cases hd
  cases hd
  have hdrow : ∀ r ∈ List.zipWith (List.zipWith (· - ·)) a b, r.length = xs.length := by
    intro r hr
    obtain ⟨i, hi⟩ := List.mem_iff_getElem?.mp hr
    rw [List.getElem?_zipWith] at hi
    cases e1 : a[i]? with
    | none => rw [e1] at hi; simp at hi
    | some r1 =>
      cases e2 : b[i]? with
      | none => rw [e1, e2] at hi; simp at hi
      | some r2 =>
        rw [e1, e2] at hi
        cases hi
        rw [List.length_zipWith, a2 r1 (List.mem_of_getElem? e1), b2 r2 (List.mem_of_getElem? e2), min_self]
  obtain ⟨m, hm⟩ := (C115_fits xs ys (List.zipWith (List.zipWith (· - ·)) a b)).mpr ⟨by rw [List.length_zipWith, a1, b1, min_self], hdrow, a3, a4, a5, a6⟩
  refine ⟨m, hm, fun x y va vb hva hvb => ?_⟩
  -- one table with both values
  have ab : a.length = b.length := by rw [a1, b1]
  let T : List (K × (List K × List K)) := sortNodes (ys.zip (a.zip b))
  have rowlen : ∀ n ∈ T, n.2.1.length = n.2.2.length := by
    rintro ⟨y, r1, r2⟩ hn
    obtain ⟨i, -, e⟩ := mem_zip_iff.mp (mem_sortNodes.mp hn)
    obtain ⟨q1, q2⟩ := List.getElem?_zip_eq_some.mp e
    show r1.length = r2.length
    rw [a2 r1 (List.mem_of_getElem? q1), b2 r2 (List.mem_of_getElem? q2)]
  have eA : ma = T.map fun n => (n.1, sortNodes (xs.zip n.2.1)) := by
    rw [a7, List.zip_map_right, zip_fst_of ys a b ab, List.map_map]
    exact sortNodes_map (ys.zip (a.zip b)) fun n => sortNodes (xs.zip n.1)
  have eB : mb = T.map fun n => (n.1, sortNodes (xs.zip n.2.2)) := by
    rw [b7, List.zip_map_right, zip_snd_of ys a b ab, List.map_map]
    exact sortNodes_map (ys.zip (a.zip b)) fun n => sortNodes (xs.zip n.2)
  have eM : m = T.map fun n => (n.1, sortNodes (xs.zip (List.zipWith (· - ·) n.2.1 n.2.2))) := by
    rw [(fit_inv hm).2.2.2.2.2.2, List.zip_map_right, zip_zipWith ys _ a b, List.map_map]
    exact sortNodes_map (ys.zip (a.zip b)) fun n => sortNodes (xs.zip (List.zipWith (· - ·) n.1 n.2))
  obtain ⟨fa, hfa⟩ := rows_values ha x
  obtain ⟨fb, hfb⟩ := rows_values hb x
  obtain ⟨fm, hfm⟩ := rows_values hm x
  rw [at_eq ma x y fa hfa] at hva
  rw [at_eq mb x y fb hfb] at hvb
  rw [at_eq m x y fm hfm]
  rw [eA, List.map_map] at hva
  rw [eB, List.map_map] at hvb
  rw [eM, List.map_map]
  let ga : K × (List K × List K) → K := fun n => fa (n.1, sortNodes (xs.zip n.2.1))
  let gb : K × (List K × List K) → K := fun n => fb (n.1, sortNodes (xs.zip n.2.2))
  have hsub : ∀ n ∈ T, fm (n.1, sortNodes (xs.zip (List.zipWith (· - ·) n.2.1 n.2.2))) = ga n - gb n := by
    intro n hn
    have qa := hfa (n.1, sortNodes (xs.zip n.2.1)) (by rw [eA]; exact List.mem_map.mpr ⟨n, hn, rfl⟩)
    have qb := hfb (n.1, sortNodes (xs.zip n.2.2)) (by rw [eB]; exact List.mem_map.mpr ⟨n, hn, rfl⟩)
    have qm := hfm (n.1, sortNodes (xs.zip (List.zipWith (· - ·) n.2.1 n.2.2))) (by rw [eM]; exact List.mem_map.mpr ⟨n, hn, rfl⟩)
    dsimp only at qa qb qm
    have q1 : sortNodes (xs.zip n.2.1) = (sortNodes (xs.zip (n.2.1.zip n.2.2))).map fun k => (k.1, k.2.1) := by
      rw [zip_fst_of xs n.2.1 n.2.2 (rowlen n hn)]
      exact sortNodes_map _ _
    have q2 : sortNodes (xs.zip n.2.2) = (sortNodes (xs.zip (n.2.1.zip n.2.2))).map fun k => (k.1, k.2.2) := by
      rw [zip_snd_of xs n.2.1 n.2.2 (rowlen n hn)]
      exact sortNodes_map _ _
    have q3 : sortNodes (xs.zip (List.zipWith (· - ·) n.2.1 n.2.2)) = (sortNodes (xs.zip (n.2.1.zip n.2.2))).map fun k => (k.1, k.2.1 - k.2.2) := by
      rw [zip_zipWith xs _ n.2.1 n.2.2]
      exact sortNodes_map (xs.zip (n.2.1.zip n.2.2)) fun k : K × K => k.1 - k.2
    have := interp1_sub (sortNodes (xs.zip (n.2.1.zip n.2.2))) (fun k => k.1) (fun k => k.2) x _ _ (by rw [← q1]; exact qa) (by rw [← q2]; exact qb)
    rw [← q3, qm] at this
    exact Except.ok.inj this
  have e : (T.map ((fun r => (r.1, fm r)) ∘ fun n => (n.1, sortNodes (xs.zip (List.zipWith (· - ·) n.2.1 n.2.2))))) =
      (T.map fun n => (n.1, n)).map fun n => (n.1, ga n.2 - gb n.2) := by
    rw [List.map_map]
    exact List.map_congr_left fun n hn => by show (n.1, _) = (n.1, _); rw [hsub n hn]
  rw [e]
  refine interp1_sub (T.map fun n => (n.1, n)) ga gb y va vb ?_ ?_
  · rw [List.map_map]; exact hva
  · rw [List.map_map]; exact hvb

/-! ### The places of a figure -/

omit [LinearOrder K] [IsStrictOrderedRing K] in
theorem linspace_length (a b : K) (n : Nat) : (linspace a b n).length = n := by
  unfold linspace
  split
  · simp_all
  · simp

/-- **C115** The places along an axis: as many as asked for, from the first end to the second one, all of them between the ends. -/
theorem C115_places (a b : K) (hab : a ≤ b) (n : Nat) (hn : 2 ≤ n) : (linspace a b n).length = n ∧ (linspace a b n)[0]? = some a ∧
    (linspace a b n)[n - 1]? = some b ∧ ∀ x ∈ linspace a b n, a ≤ x ∧ x ≤ b := by
  have hn1 : n ≠ 1 := by omega
  have hpos : (0 : K) < (n : K) - 1 := by
    have : (2 : K) ≤ n := by exact_mod_cast hn
    linarith
  refine ⟨linspace_length a b n, ?_, ?_, ?_⟩
  · unfold linspace
    rw [if_neg hn1, List.getElem?_map, List.getElem?_range (by omega)]
    simp
  · unfold linspace
    rw [if_neg hn1, List.getElem?_map, List.getElem?_range (by omega)]
    have : ((n - 1 : Nat) : K) = (n : K) - 1 := by
      rw [Nat.cast_sub (by omega)]
      simp
    simp only [Option.map_some, this]
    congr 1
    field_simp
    ring
  · intro x hx
    unfold linspace at hx
    rw [if_neg hn1] at hx
    obtain ⟨i, hi, rfl⟩ := List.mem_map.mp hx
    have hi1 : (i : K) ≤ (n : K) - 1 := by
      have : i + 1 ≤ n := List.mem_range.mp hi
      have : ((i + 1 : Nat) : K) ≤ n := by exact_mod_cast this
      push_cast at this
      linarith
    have hd : 0 ≤ (b - a) / ((n : K) - 1) := div_nonneg (by linarith) hpos.le
    have h0 : (0 : K) ≤ i := Nat.cast_nonneg i
    refine ⟨by nlinarith [mul_nonneg h0 hd], ?_⟩
    have : (i : K) * ((b - a) / ((n : K) - 1)) ≤ ((n : K) - 1) * ((b - a) / ((n : K) - 1)) := mul_le_mul_of_nonneg_right hi1 hd
    rw [mul_div_cancel₀ _ hpos.ne'] at this
    linarith

theorem drawMap_inv {xs ys : List K} {z fig : List (List K)} {xnew ynew : List K} (h : drawMap xs ys z xnew ynew = .ok fig) :
    ∃ m, fitMap xs ys z = .ok m ∧ ∃ g : K → K → K, (∀ x y, m.at x y = .ok (g x y)) ∧ fig = ynew.map fun y => xnew.map fun x => g x y := by
  obtain ⟨m, hm, h⟩ := bind_ok.mp h
  choose g hg _ using fun x y => C115_between hm x y
  refine ⟨m, hm, g, hg, ?_⟩
  have e : (ynew.mapM fun y => xnew.mapM fun x => m.at x y) = .ok (ynew.map fun y => xnew.map fun x => g x y) :=
    mapM_ok fun y _ => mapM_ok fun x _ => hg x y
  rw [e] at h
  exact (Except.ok.inj h).symm

/-- **C115** When a map can be drawn, the figure has a row for each of its places along the pressures of oxygen and in it a value for each place along those of carbon monoxide: the
value of the map there. -/
theorem C115_figure {xs ys : List K} {z : List (List K)} {m : MapFit K} (hm : fitMap xs ys z = .ok m) (xnew ynew : List K) : ∃ fig, drawMap xs ys z xnew ynew = .ok fig ∧
    fig.length = ynew.length ∧ ∀ (i j : Nat) (x y : K), xnew[i]? = some x → ynew[j]? = some y → ∃ row v, fig[j]? = some row ∧ row.length = xnew.length ∧
      row[i]? = some v ∧ m.at x y = .ok v := by
  choose g hg _ using fun x y => C115_between hm x y
  refine ⟨ynew.map fun y => xnew.map fun x => g x y, ?_, by simp, fun i j x y hx hy => ⟨xnew.map fun x => g x y, g x y, ?_, by simp, ?_, hg x y⟩⟩
  · refine bind_ok.mpr ⟨m, hm, ?_⟩
    exact mapM_ok fun y _ => mapM_ok fun x _ => hg x y
  · simp [hy]
  · simp [hx]

/-- **C115** From the directories of the runs to the figure: when all directories hold runs at the same pressures, the map made of the collected values shows at the pressures of each
run the value of that run. -/
theorem C115_runs {A : Type} (toFloat : Str → Option K) (value : A → Py K) (text : K → Str) (qs cs : List K) (hq : qs.Nodup) (hc : cs.Nodup) (hq2 : 2 ≤ qs.length)
    (hc2 : 2 ≤ cs.length) (ht : ∀ p ∈ qs ++ cs, toFloat (text p) = some p ∧ 'p' ∉ text p) (run : K → K → A) (v : K → K → K)
    (hv : ∀ q ∈ qs, ∀ c ∈ cs, value (run q c) = .ok (v q c)) (inner : K → List (Str × A)) (listing : List (Str × List (Str × A)))
    (hl : listing.filter (fun x => decide (str! "pO2-" <+: x.1)) = qs.map fun q => (str! "pO2-" ++ text q, inner q))
    (hi : ∀ q ∈ qs, (inner q).filter (fun x => decide (str! "pCO-" <+: x.1)) = cs.map fun c => (str! "pCO-" ++ text c, run q c)) :
    ∃ xs ys z m, gatherMap toFloat value listing = .ok (xs, ys, z) ∧ fitMap xs ys z = .ok m ∧ ∀ q ∈ qs, ∀ c ∈ cs, m.at c q = .ok (v q c) := by
  have hq0 : qs ≠ [] := by rintro rfl; simp at hq2
  obtain ⟨m, hm⟩ := (C115_fits cs qs (qs.map fun q => cs.map fun c => v q c)).mpr ⟨by simp, by
    intro r hr
    obtain ⟨q, -, rfl⟩ := List.mem_map.mp hr
    simp, hc, hq, hc2, hq2⟩
  refine ⟨cs, qs, _, m, C106_map_partial toFloat value text qs cs hq0 ht run v hv inner listing hl hi, hm, fun q hq' c hc' => ?_⟩
  obtain ⟨j, hj⟩ := List.mem_iff_getElem?.mp hq'
  obtain ⟨i, hi⟩ := List.mem_iff_getElem?.mp hc'
  exact C115_nodes hm ⟨i, j, cs.map fun c => v q c, hi, hj, by simp [hj], by simp [hi]⟩

/-- **C115** The contour plots of lattice runs end at a pressure of carbon monoxide of 0.0001: for runs at that pressure and above, every row of the figure shows one value only,
whatever the runs gave. -/
theorem C115_window_refuted {xs ys : List K} {z fig : List (List K)} (h : contourPlot xs ys z = .ok fig) (hx : ∀ c ∈ xs, 1 / 10000 ≤ c) :
    ∀ row ∈ fig, ∀ v ∈ row, ∀ w ∈ row, v = w := by
  obtain ⟨m, hm, g, hg, rfl⟩ := drawMap_inv h
  intro row hr v hv w hw
  obtain ⟨y, -, rfl⟩ := List.mem_map.mp hr
  obtain ⟨x, hx1, rfl⟩ := List.mem_map.mp hv
  obtain ⟨x', hx1', rfl⟩ := List.mem_map.mp hw
  have hle : (1 : K) / 100000 ≤ 1 / 10000 := by norm_num
  have b := ((C115_places _ _ hle 100 (by norm_num)).2.2.2 x hx1).2
  have b' := ((C115_places _ _ hle 100 (by norm_num)).2.2.2 x' hx1').2
  have := C115_outside hm x x' y (.inl fun c hc => ⟨b.trans (hx c hc), b'.trans (hx c hc)⟩)
  rw [hg, hg] at this
  exact Except.ok.inj this

/-- **C115** The phase diagram is drawn for tables that fit the pressures of the file of frequencies, and its first part shows, place by place, the difference of the maps of both
coverages. -/
theorem C115_phases {pCOs pO2s : List K} {tofs cvgsCO cvgsO : List (List K)} {mc mo mt : MapFit K} (hc : fitMap pCOs pO2s cvgsCO = .ok mc)
    (ho : fitMap pCOs pO2s cvgsO = .ok mo) (ht : fitMap pCOs pO2s tofs = .ok mt) : ∃ c t, phaseDiagram pCOs pO2s tofs cvgsCO cvgsO = .ok (c, t) ∧
    c.length = 100 ∧ t.length = 100 ∧
    ∀ (i j : Nat) (x y : K), (linspace (1 / 100000 : K) (1 / 2) 200)[i]? = some x → (linspace (1 / 100000 : K) (1 / 2) 100)[j]? = some y →
      ∃ rc rt vo vc vt, c[j]? = some rc ∧ rc[i]? = some (vo - vc) ∧ t[j]? = some rt ∧ rt[i]? = some vt ∧ mo.at x y = .ok vo ∧ mc.at x y = .ok vc ∧ mt.at x y = .ok vt := by
  obtain ⟨c1, c2, -⟩ := fit_inv hc
  obtain ⟨o1, o2, -⟩ := fit_inv ho
  have hl : cvgsO.map List.length = cvgsCO.map List.length := by
    have : ∀ {z : List (List K)}, (∀ r ∈ z, r.length = pCOs.length) → z.map List.length = List.replicate z.length pCOs.length := by
      intro z hz
      rw [List.eq_replicate_iff]
      exact ⟨by simp, fun b hb => by obtain ⟨r, hr, rfl⟩ := List.mem_map.mp hb; exact hz r hr⟩
    rw [this c2, this o2, c1, o1]
  obtain ⟨m, hm, hd⟩ := C115_difference ho hc (d := List.zipWith (List.zipWith (· - ·)) cvgsO cvgsCO) (by unfold subTables; rw [if_pos hl])
  obtain ⟨fc, ec, lc, pc⟩ := C115_figure hm (linspace (1 / 100000) (1 / 2) 200) (linspace (1 / 100000) (1 / 2) 100)
  obtain ⟨ft, et, lt, pt⟩ := C115_figure ht (linspace (1 / 100000) (1 / 2) 200) (linspace (1 / 100000) (1 / 2) 100)
  refine ⟨fc, ft, ?_, by rw [lc, linspace_length], by rw [lt, linspace_length], fun i j x y hx hy => ?_⟩
  · refine bind_ok.mpr ⟨_, by unfold subTables; rw [if_pos hl], ?_⟩
    exact bind_ok.mpr ⟨fc, ec, bind_ok.mpr ⟨ft, et, rfl⟩⟩
  · obtain ⟨rc, v, q1, -, q2, q3⟩ := pc i j x y hx hy
    obtain ⟨rt, vt, r1, -, r2, r3⟩ := pt i j x y hx hy
    obtain ⟨vo, ho', -⟩ := C115_between ho x y
    obtain ⟨vc, hc', -⟩ := C115_between hc x y
    have := hd x y vo vc ho' hc'
    rw [q3] at this
    exact ⟨rc, rt, vo, vc, vt, q1, by rw [q2, Except.ok.inj this], r1, r2, ho', hc', r3⟩

/-! ### Cases -/

/-- Three pressures of carbon monoxide out of order, two of oxygen. -/
def exMapX : List ℚ := [1, 3, 2]
/-- Two pressures of oxygen. -/
def exMapY : List ℚ := [10, 20]
/-- The values. -/
def exMapZ : List (List ℚ) := [[5, 9, 6], [0, 4, 2]]
/-- The map. -/
def exMap : MapFit ℚ := [(10, [(1, 5), (2, 6), (3, 9)]), (20, [(1, 0), (2, 2), (3, 4)])]

theorem exMap_ok : fitMap exMapX exMapY exMapZ = .ok exMap := by decide +kernel

example : exMap.at 3 10 = .ok 9 := C115_nodes exMap_ok ⟨1, 0, [5, 9, 6], rfl, rfl, rfl, rfl⟩
example : exMap.at (5 / 2) 15 = .ok (21 / 4) := by decide +kernel
example : exMap.at (5 / 2) 15 = .ok (onLine 10 (onLine 2 6 3 9 (5 / 2)) 20 (onLine 2 2 3 4 (5 / 2)) 15) :=
  C115_cell exMap_ok (x0 := 2) (x1 := 3) (y0 := 10) (y1 := 20) (by unfold NextTo exMapX; decide +kernel) (by unfold NextTo exMapY; decide +kernel)
    ⟨2, 0, _, rfl, rfl, rfl, rfl⟩ ⟨1, 0, _, rfl, rfl, rfl, rfl⟩ ⟨2, 1, _, rfl, rfl, rfl, rfl⟩ ⟨1, 1, _, rfl, rfl, rfl, rfl⟩ (by norm_num) (by norm_num) (by norm_num) (by norm_num)
example : exMap.at (-7) 12 = exMap.at 1 12 := C115_outside exMap_ok _ _ _ (.inl (by decide +kernel))
example : fitMap [3, 2, 1] exMapY [[9, 6, 5], [4, 2, 0]] = .ok exMap := by decide +kernel
example : ∃ m, fitMap exMapX exMapY [[4, 0, 0], [0, 0, -1]] = .ok m := (C115_fits _ _ _).mpr (by decide +kernel)
example : ¬ ∃ m, fitMap exMapX exMapY [[4, 0, 0]] = .ok m := fun h => absurd ((C115_fits _ _ _).mp h).1 (by decide)
example : ∃ m, fitMap exMapX exMapY [[4, 9, 6], [0, 4, 3]] = .ok m ∧ m.at (5 / 2) 15 = .ok (21 / 4 - 1 / -4) := by
  obtain ⟨m, hm, h⟩ := C115_difference (a := exMapZ) (b := [[1, 0, 0], [0, 0, -1]]) (d := [[4, 9, 6], [0, 4, 3]])
    (mb := [(10, [(1, 1), (2, 0), (3, 0)]), (20, [(1, 0), (2, -1), (3, 0)])]) exMap_ok (by decide +kernel) (by decide +kernel)
  exact ⟨m, hm, by rw [h (5 / 2) 15 (21 / 4) (-1 / 4) (by decide +kernel) (by decide +kernel)]; norm_num⟩
example : (linspace (0 : ℚ) 1 5) = [0, 1 / 4, 1 / 2, 3 / 4, 1] := by decide +kernel

/-- The pressures of carbon monoxide of `create_jobs.py` lie right of the window of the contour plots. -/
example : ∃ fig, contourPlot (linspace (1 / 100 : ℚ) 20 10) exMapY [List.range 10 |>.map fun i => (i : ℚ), List.range 10 |>.map fun i => (2 * i : ℚ)] = .ok fig ∧
    ∀ row ∈ fig, ∀ v ∈ row, ∀ w ∈ row, v = w := by
  obtain ⟨m, hm⟩ := (C115_fits (linspace (1 / 100 : ℚ) 20 10) exMapY [List.range 10 |>.map fun i => (i : ℚ), List.range 10 |>.map fun i => (2 * i : ℚ)]).mpr (by decide +kernel)
  obtain ⟨fig, e, -⟩ := C115_figure hm (contourPlaces (K := ℚ)).1 (contourPlaces (K := ℚ)).2
  refine ⟨fig, e, C115_window_refuted e fun c hc => ?_⟩
  have := ((C115_places (1 / 100 : ℚ) 20 (by norm_num) 10 (by norm_num)).2.2.2 c hc).1
  linarith
example : ∃ c t, phaseDiagram exMapX exMapY exMapZ exMapZ exMapZ = .ok (c, t) ∧ c.length = 100 :=
  have ⟨c, t, h, hl, _⟩ := C115_phases exMap_ok exMap_ok exMap_ok
  ⟨c, t, h, hl⟩

/-- The hypotheses of `C115_runs` hold for the directories of the example of `C106_map_partial`. -/
example : ∃ xs ys z m, gatherMap exFloat exValue
    [(str! "jobs.sh", []), (str! "pO2-1", [(str! "pCO-1", 11), (str! "pCO-2", 12), (str! "run.log", 0)]),
      (str! "pO2-2", [(str! "pCO-1", 21), (str! "pCO-2", 22), (str! "run.log", 0)])] = .ok (xs, ys, z) ∧ fitMap xs ys z = .ok m ∧
    ∀ q ∈ [1, 2], ∀ c ∈ [1, 2], m.at c q = .ok (10 * q + c) :=
  C115_runs exFloat exValue exText [1, 2] [1, 2] (by decide +kernel) (by decide +kernel) (by decide) (by decide) (by decide +kernel) (fun q c => 10 * q + c) (fun q c => 10 * q + c)
    (fun _ _ _ _ => rfl) (fun q => [(str! "pCO-1", 10 * q + 1), (str! "pCO-2", 10 * q + 2), (str! "run.log", 0)]) _ (by decide +kernel) (by decide +kernel)

end Verif
