import Verif.Model.Arrays
import Verif.Props.Checks
/-
C39 for lists of lists: which values the attributes for vectors accept.
-/
namespace Verif

/-- The kinds in order; joining takes the greater one. -/
def kindRank : Option NpKind → Nat
  | none => 0
  | some .b => 1
  | some .i => 2
  | some .f => 3
  | some .U => 4
  | some .O => 5

theorem joinKinds_rank (k k' : Option NpKind) : kindRank (joinKinds k k') = max (kindRank k) (kindRank k') := by
  cases k with
  | none => simp [joinKinds, kindRank]
  | some k => cases k' with
    | none => cases k <;> rfl
    | some k' => cases k <;> cases k' <;> rfl

theorem joinAll_rank (t : List NpInfo) (m : Nat) :
    kindRank (t.foldr (fun x k => joinKinds x.kind k) none) ≤ m ↔ ∀ x ∈ t, kindRank x.kind ≤ m := by
  induction t with
  | nil => simp [kindRank]
  | cons a t ih => simp only [List.foldr_cons, joinKinds_rank, max_le_iff, ih, List.forall_mem_cons]

theorem npArrays_some {l : List PyVal} {t : List NpInfo} : npArrays l = some t ↔ List.Forall₂ (fun v a => npArray v = some a) l t := by
  induction l generalizing t with
  | nil => simp [npArrays, eq_comm]
  | cons v l ih =>
    rw [npArrays]
    constructor
    · intro h
      obtain ⟨a, h1, h2⟩ := Option.bind_eq_some_iff.mp h
      obtain ⟨t', h3, rfl⟩ := Option.map_eq_some_iff.mp h2
      exact .cons h1 (ih.mp h3)
    · intro h
      cases h with
      | cons h1 h2 => rw [h1, ih.mpr h2]; rfl

theorem stackInfo_some {t : List NpInfo} {a : NpInfo} : stackInfo t = some a ↔
    (t = [] ∧ a = ⟨[0], none⟩) ∨ ∃ s, t ≠ [] ∧ (∀ x ∈ t, x.shape = s) ∧ a = ⟨t.length :: s, t.foldr (fun x k => joinKinds x.kind k) none⟩ := by
  cases t with
  | nil => simp [stackInfo, eq_comm]
  | cons x l =>
    unfold stackInfo
    dsimp only
    constructor
    · intro h
      split at h
      · rename_i hall
        refine .inr ⟨x.shape, by simp, ?_, (Option.some.inj h).symm⟩
        intro y hy
        rcases List.mem_cons.mp hy with rfl | hy
        · rfl
        · exact of_decide_eq_true (List.all_eq_true.mp hall y hy)
      · cases h
    · rintro (⟨h, -⟩ | ⟨s, -, h1, rfl⟩)
      · cases h
      · have h2 := h1 x (by simp)
        rw [if_pos (List.all_eq_true.mpr fun y hy => decide_eq_true ((h1 y (by simp [hy])).trans h2.symm)), h2]
        rfl

/-- Truth values, integers and floats. -/
def IsNumber (e : PyVal) : Prop := (∃ b, e = .bool b) ∨ (∃ z, e = .int z) ∨ ∃ q, e = .float q

theorem seq_info {v : PyVal} {l : List PyVal} (h : IsSeq v l) : npArray v = (npArrays l).bind stackInfo := by
  rcases h with rfl | rfl <;> rw [npArray]

/-- A value whose array has no dimension is not a sequence, and its kind tells what it is. -/
theorem scalar_info {e : PyVal} {a : NpInfo} (h : npArray e = some a) (hs : a.shape = []) :
    0 < kindRank a.kind ∧ (kindRank a.kind ≤ 3 ↔ IsNumber e) ∧ (kindRank a.kind = 3 ↔ ∃ q, e = .float q) := by
  have hseq : ∀ l, (npArrays l).bind stackInfo = some a → False := by
    intro l h
    obtain ⟨t, -, h2⟩ := Option.bind_eq_some_iff.mp h
    rcases stackInfo_some.mp h2 with ⟨-, rfl⟩ | ⟨s, -, -, rfl⟩ <;> cases hs
  cases e with
  | list l => rw [npArray] at h; exact (hseq l h).elim
  | tuple l => rw [npArray] at h; exact (hseq l h).elim
  | _ => rw [npArray] at h; cases Option.some.inj h; simp [kindRank, IsNumber]

theorem number_info {e : PyVal} (h : IsNumber e) : ∃ a, npArray e = some a ∧ a.shape = [] := by
  rcases h with ⟨b, rfl⟩ | ⟨b, rfl⟩ | ⟨b, rfl⟩ <;> exact ⟨_, by rw [npArray], rfl⟩

/-- Sequences of one dimension. -/
theorem row_info {r : PyVal} {a : NpInfo} {n : Nat} (h : npArray r = some a) (hs : a.shape = [n]) :
    ∃ l, IsSeq r l ∧ l.length = n ∧ (∀ m, kindRank a.kind ≤ m ↔ ∀ e ∈ l, ∃ b, npArray e = some b ∧ b.shape = [] ∧ kindRank b.kind ≤ m) ∧
      ∀ e ∈ l, ∃ b, npArray e = some b ∧ b.shape = [] := by
  have hseq : ∃ l, IsSeq r l := by
    cases r with
    | list l => exact ⟨l, .inl rfl⟩
    | tuple l => exact ⟨l, .inr rfl⟩
    | _ => rw [npArray] at h; cases Option.some.inj h; cases hs
  obtain ⟨l, hl⟩ := hseq
  rw [seq_info hl] at h
  obtain ⟨t, h1, h2⟩ := Option.bind_eq_some_iff.mp h
  have h1 := npArrays_some.mp h1
  have hlen := h1.length_eq
  refine ⟨l, hl, ?_⟩
  rcases stackInfo_some.mp h2 with ⟨rfl, rfl⟩ | ⟨s, -, h3, rfl⟩
  · cases h1
    cases hs
    exact ⟨rfl, fun m => by simp [kindRank], by simp⟩
  · have hs' := List.cons.inj hs
    have hb : ∀ e ∈ l, ∃ b ∈ t, npArray e = some b ∧ b.shape = [] := by
      intro e he
      obtain ⟨i, hi, rfl⟩ := List.getElem_of_mem he
      refine ⟨t[i]'(by omega), List.getElem_mem _, (List.forall₂_iff_get.mp h1).2 i hi (by omega), ?_⟩
      rw [h3 _ (List.getElem_mem _), hs'.2]
    refine ⟨hlen.trans hs'.1, fun m => ?_, fun e he => let ⟨b, _, h⟩ := hb e he; ⟨b, h⟩⟩
    rw [joinAll_rank]
    constructor
    · intro h e he
      obtain ⟨b, hb, h4, h5⟩ := hb e he
      exact ⟨b, h4, h5, h b hb⟩
    · intro h x hx
      obtain ⟨i, hi, rfl⟩ := List.getElem_of_mem hx
      obtain ⟨b, h4, -, h5⟩ := h (l[i]'(by omega)) (List.getElem_mem _)
      have : npArray (l[i]'(by omega)) = some t[i] := (List.forall₂_iff_get.mp h1).2 i (by omega) hi
      rw [this] at h4
      rw [Option.some.inj h4]
      exact h5

theorem rank_zero_or_three (k : Option NpKind) : k.getD .f = .f ↔ kindRank k = 0 ∨ kindRank k = 3 := by
  cases k with
  | none => simp [kindRank]
  | some k => cases k <;> simp [kindRank]

/-- The rows of a value: a list of at least one sequence, all of length `n` and of numbers; at least one float among the numbers, if there are any. -/
def FloatRows (v : PyVal) (n : Nat) : Prop :=
  ∃ rows, v = .list rows ∧ rows ≠ [] ∧ (∀ r ∈ rows, ∃ l, IsSeq r l ∧ l.length = n ∧ ∀ e ∈ l, IsNumber e) ∧
    (n = 0 ∨ ∃ r ∈ rows, ∃ l q, IsSeq r l ∧ PyVal.float q ∈ l)

theorem isSeq_unique {v : PyVal} {l l' : List PyVal} (h : IsSeq v l) (h' : IsSeq v l') : l = l' := by
  rcases h with rfl | rfl <;> rcases h' with h' | h' <;> first | exact PyVal.list.inj h' | exact PyVal.tuple.inj h' | cases h'

theorem floatRows_iff (v : PyVal) (n : Nat) :
    FloatRows v n ↔ v.type = .list ∧ ∃ a m, npArray v = some a ∧ a.kind.getD .f = .f ∧ a.shape = [m, n] := by
  constructor
  · rintro ⟨rows, rfl, hne, hrows, hf⟩
    have hinfo : ∀ r ∈ rows, ∃ a, npArray r = some a ∧ a.shape = [n] := by
      intro r hr
      obtain ⟨l, hl, hn, hnum⟩ := hrows r hr
      rw [seq_info hl]
      have : ∀ l : List PyVal, (∀ e ∈ l, IsNumber e) → ∃ t, npArrays l = some t ∧ t.length = l.length ∧ ∀ x ∈ t, x.shape = [] := by
        intro l
        induction l with
        | nil => exact fun _ => ⟨[], by simp [npArrays], rfl, by simp⟩
        | cons e l ih =>
          intro h
          obtain ⟨t, h1, h2, h3⟩ := ih fun x hx => h x (by simp [hx])
          obtain ⟨a, h4, h5⟩ := number_info (h e (by simp))
          refine ⟨a :: t, by simp [npArrays, h1, h4], by simp [h2], ?_⟩
          intro x hx
          rcases List.mem_cons.mp hx with rfl | hx
          · exact h5
          · exact h3 x hx
      obtain ⟨t, h1, h2, h3⟩ := this l hnum
      rw [h1]
      cases t with
      | nil =>
        refine ⟨⟨[0], none⟩, rfl, ?_⟩
        have h0 : l.length = 0 := h2.symm
        have : n = 0 := by omega
        rw [this]
      | cons x t =>
        refine ⟨_, stackInfo_some.mpr (.inr ⟨[], by simp, h3, rfl⟩), ?_⟩
        show [(x :: t).length] = [n]
        rw [h2, hn]
    have : ∀ rows : List PyVal, (∀ r ∈ rows, ∃ a, npArray r = some a ∧ a.shape = [n]) →
        ∃ t, npArrays rows = some t ∧ t.length = rows.length ∧ ∀ x ∈ t, x.shape = [n] := by
      intro rows
      induction rows with
      | nil => exact fun _ => ⟨[], by simp [npArrays], rfl, by simp⟩
      | cons e l ih =>
        intro h
        obtain ⟨t, h1, h2, h3⟩ := ih fun x hx => h x (by simp [hx])
        obtain ⟨a, h4, h5⟩ := h e (by simp)
        refine ⟨a :: t, by simp [npArrays, h1, h4], by simp [h2], ?_⟩
        intro x hx
        rcases List.mem_cons.mp hx with rfl | hx
        · exact h5
        · exact h3 x hx
    obtain ⟨t, h1, h2, h3⟩ := this rows hinfo
    have ht : t ≠ [] := by
      rintro rfl
      exact hne (List.length_eq_zero_iff.mp h2.symm)
    refine ⟨rfl, ⟨t.length :: [n], t.foldr (fun x k => joinKinds x.kind k) none⟩, t.length, ?_, ?_, rfl⟩
    · rw [npArray, h1]
      exact stackInfo_some.mpr (.inr ⟨[n], ht, h3, rfl⟩)
    · have hall := npArrays_some.mp h1
      have hrow : ∀ i (hi : i < rows.length), npArray rows[i] = some (t[i]'(by omega)) := fun i hi => (List.forall₂_iff_get.mp hall).2 i hi (by omega)
      rw [rank_zero_or_three]
      dsimp only
      have hle : kindRank (t.foldr (fun x k => joinKinds x.kind k) none) ≤ 3 := by
        rw [joinAll_rank]
        intro x hx
        obtain ⟨i, hi, rfl⟩ := List.getElem_of_mem hx
        obtain ⟨l, hl, -, h4, h5⟩ := row_info (hrow i (by omega)) (h3 _ hx)
        rw [h4]
        intro e he
        obtain ⟨b, h6, h7⟩ := h5 e he
        obtain ⟨l', hl', -, hnum⟩ := hrows _ (List.getElem_mem (l := rows) (n := i) (by omega))
        rw [isSeq_unique hl' hl] at hnum
        exact ⟨b, h6, h7, (scalar_info h6 h7).2.1.mpr (hnum e he)⟩
      rcases hf with h0 | ⟨r, hr, l, q, hl, hq⟩
      · left
        have : kindRank (t.foldr (fun x k => joinKinds x.kind k) none) ≤ 0 := by
          rw [joinAll_rank]
          intro x hx
          obtain ⟨i, hi, rfl⟩ := List.getElem_of_mem hx
          obtain ⟨l, hl, hlen, h4, h5⟩ := row_info (hrow i (by omega)) (h3 _ hx)
          rw [h4]
          rw [h0, List.length_eq_zero_iff] at hlen
          rw [hlen]
          simp
        omega
      · right
        have : ¬ kindRank (t.foldr (fun x k => joinKinds x.kind k) none) ≤ 2 := by
          rw [joinAll_rank]
          intro h
          obtain ⟨i, hi, rfl⟩ := List.getElem_of_mem hr
          have h8 := h _ (List.getElem_mem (l := t) (n := i) (by omega))
          obtain ⟨l', hl', -, h4, h5⟩ := row_info (hrow i hi) (h3 _ (List.getElem_mem _))
          rw [isSeq_unique hl hl'] at hq
          obtain ⟨b, h6, h7, h9⟩ := (h4 2).mp h8 _ hq
          have := (scalar_info h6 h7).2.2.mpr ⟨q, rfl⟩
          omega
        omega
  · rintro ⟨ht, a, m, h1, hk, hs⟩
    have : ∃ rows, v = .list rows := by
      cases v <;> first | exact ⟨_, rfl⟩ | cases ht
    obtain ⟨rows, rfl⟩ := this
    rw [npArray] at h1
    obtain ⟨t, h2, h3⟩ := Option.bind_eq_some_iff.mp h1
    rcases stackInfo_some.mp h3 with ⟨-, rfl⟩ | ⟨s, hne, h4, rfl⟩
    · cases hs
    have hs' := List.cons.inj hs
    have h4 : ∀ x ∈ t, x.shape = [n] := fun x hx => (h4 x hx).trans hs'.2
    have hall := npArrays_some.mp h2
    have hlen := hall.length_eq
    have hrow : ∀ i (hi : i < rows.length), npArray rows[i] = some (t[i]'(by omega)) := fun i hi => (List.forall₂_iff_get.mp hall).2 i hi (by omega)
    rw [rank_zero_or_three] at hk
    dsimp only at hk
    have hle : kindRank (t.foldr (fun x k => joinKinds x.kind k) none) ≤ 3 := by omega
    rw [joinAll_rank] at hle
    refine ⟨rows, rfl, ?_, ?_, ?_⟩
    · rintro rfl
      exact hne (List.length_eq_zero_iff.mp hlen.symm)
    · intro r hr
      obtain ⟨i, hi, rfl⟩ := List.getElem_of_mem hr
      obtain ⟨l, hl, hn, h5, h6⟩ := row_info (hrow i hi) (h4 _ (List.getElem_mem _))
      refine ⟨l, hl, hn, fun e he => ?_⟩
      obtain ⟨b, h7, h8, h9⟩ := (h5 3).mp (hle _ (List.getElem_mem _)) e he
      exact (scalar_info h7 h8).2.1.mp h9
    · rcases hk with hk | hk
      · left
        have hk : kindRank (t.foldr (fun x k => joinKinds x.kind k) none) ≤ 0 := by omega
        rw [joinAll_rank] at hk
        cases t with
        | nil => exact (hne rfl).elim
        | cons x t =>
          have h0 : 0 < rows.length := by rw [hlen]; simp
          obtain ⟨l, hl, hn, h5, h6⟩ := row_info (hrow 0 h0) (h4 _ (List.getElem_mem _))
          cases l with
          | nil => exact hn.symm
          | cons e l =>
            obtain ⟨b, h7, h8, h9⟩ := (h5 0).mp (hk x (by simp)) e (by simp)
            have := (scalar_info h7 h8).1
            omega
      · right
        have h2 : ¬ kindRank (t.foldr (fun x k => joinKinds x.kind k) none) ≤ 2 := by omega
        rw [joinAll_rank] at h2
        push Not at h2
        obtain ⟨x, hx, h9⟩ := h2
        obtain ⟨i, hi, rfl⟩ := List.getElem_of_mem hx
        obtain ⟨l, hl, hn, h5, h6⟩ := row_info (hrow i (by omega)) (h4 _ hx)
        have h10 : ¬ kindRank t[i].kind ≤ 2 := by omega
        rw [h5] at h10
        push Not at h10
        obtain ⟨e, he, h11⟩ := h10
        obtain ⟨b, h12, h13, h14⟩ := (h5 3).mp (hle _ hx) e he
        have h15 := h11 b h12 h13
        obtain ⟨q, rfl⟩ := (scalar_info h12 h13).2.2.mp (by omega)
        exact ⟨_, List.getElem_mem (by omega), l, q, hl, he⟩

/-- **C39** Attributes for lists of lists accept exactly lists of rows of the same length, lists or tuples, of numbers, at least one of which is a
float; rows of integers only are refused, rows without entries accepted. Everything else is a `ValueError`. -/
theorem C39_float_rows (v : PyVal) :
    (floatList2DCheck v = .ok () ↔ ∃ n, FloatRows v n) ∧ (floatList2DCheck v ≠ .ok () → floatList2DCheck v = .error .ValueError) := by
  simp only [floatRows_iff]
  unfold floatList2DCheck
  cases h : npArray v with
  | none => simp
  | some a =>
    dsimp only
    by_cases h1 : v.type = .list
    · by_cases h2 : a.kind.getD .f = .f
      · by_cases h3 : a.shape.length = 2
        · rw [if_neg (by simpa using h1), if_neg (by simpa using h2), if_neg (by simpa using h3)]
          refine ⟨⟨fun _ => ?_, fun _ => rfl⟩, fun h => (h rfl).elim⟩
          obtain ⟨m, n, hmn⟩ := List.length_eq_two.mp h3
          exact ⟨n, h1, a, m, rfl, h2, hmn⟩
        · rw [if_neg (by simpa using h1), if_neg (by simpa using h2), if_pos h3]
          refine ⟨⟨fun h => (by cases h), ?_⟩, fun _ => rfl⟩
          rintro ⟨n, -, a', m, ha, -, hs⟩
          cases Option.some.inj ha
          rw [hs] at h3
          exact (h3 rfl).elim
      · rw [if_neg (by simpa using h1), if_pos h2]
        refine ⟨⟨fun h => (by cases h), ?_⟩, fun _ => rfl⟩
        rintro ⟨n, -, a', m, ha, hk, -⟩
        cases Option.some.inj ha
        exact (h2 hk).elim
    · rw [if_pos h1]
      refine ⟨⟨fun h => (by cases h), ?_⟩, fun _ => rfl⟩
      rintro ⟨n, h, -⟩
      exact (h1 h).elim

/-- **C39** Attributes for vectors (the cell and the sites of the lattice) accept exactly such rows of length three, and everything else is a `ValueError`. -/
theorem C39_vectors (v : PyVal) :
    (spaceVectorsCheck v = .ok () ↔ FloatRows v 3) ∧ (spaceVectorsCheck v ≠ .ok () → spaceVectorsCheck v = .error .ValueError) := by
  obtain ⟨h1, h2⟩ := C39_float_rows v
  unfold spaceVectorsCheck
  by_cases h : floatList2DCheck v = .ok ()
  · rw [h]
    dsimp only [bind, Except.bind]
    obtain ⟨n, hn⟩ := h1.mp h
    obtain ⟨ht, a, m, ha, hk, hs⟩ := (floatRows_iff v n).mp hn
    rw [ha]
    dsimp only
    rw [hs]
    dsimp only [List.getElem?_cons_succ, List.getElem?_cons_zero]
    by_cases h3 : n = 3
    · rw [if_neg (by simpa using h3)]
      exact ⟨⟨fun _ => h3 ▸ hn, fun _ => rfl⟩, fun h => (h rfl).elim⟩
    · rw [if_pos h3]
      refine ⟨⟨fun h => (by cases h), fun h => ?_⟩, fun _ => rfl⟩
      obtain ⟨-, a', m', ha', -, hs'⟩ := (floatRows_iff v 3).mp h
      rw [ha] at ha'
      cases Option.some.inj ha'
      rw [hs] at hs'
      exact (h3 (List.cons.inj (List.cons.inj hs').2).1).elim
  · rw [h2 h]
    refine ⟨⟨fun h => (by cases h), fun h' => ?_⟩, fun _ => rfl⟩
    exact (h (h1.mpr ⟨3, h'⟩)).elim

-- the default cell, the same cell written with integers, one float among integers and truth values, a tuple of rows, rows of different lengths
example : spaceVectorsCheck (.list [.list [.float 1, .float 0, .float 0], .list [.float 0, .float 1, .float 0], .list [.float 0, .float 0, .float 1]]) = .ok () ∧
    spaceVectorsCheck (.list [.list [.int 1, .int 0, .int 0], .list [.int 0, .int 1, .int 0], .list [.int 0, .int 0, .int 1]]) = .error .ValueError ∧
    spaceVectorsCheck (.list [.tuple [.int 1, .bool true, .float (1 / 2)], .list [.int 0, .int 0, .int 0]]) = .ok () ∧
    spaceVectorsCheck (.tuple [.list [.float 0, .float 0, .float 0]]) = .error .ValueError ∧
    spaceVectorsCheck (.list [.list [.float 0, .float 0, .float 0], .list [.float 0]]) = .error .ValueError ∧
    floatList2DCheck (.list [.list []]) = .ok () ∧ floatList2DCheck (.list []) = .error .ValueError := by decide +kernel

end Verif
