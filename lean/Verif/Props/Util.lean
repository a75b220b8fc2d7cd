import Verif.Model.Util
import Verif.Lemmas.Py
import Verif.Lemmas.Network
import Mathlib.Tactic.Ring
import Mathlib.Tactic.Linarith
import Mathlib.Tactic.FieldSimp
import Mathlib.Tactic.NormNum
import Mathlib.Data.Rat.Floor
/-
Properties C42, C43 (splitting over processes), C59 (time conversion), C60 (numerical Jacobian).
-/
namespace Verif
set_option linter.unusedSectionVars false

/-! ## C42 -/

theorem bumpFirst_replicate (v : Nat) : ∀ n p, n ≤ p →
    bumpFirst n (List.replicate p v) = .ok (List.replicate n (v + 1) ++ List.replicate (p - n) v)
  | 0, p, _ => by simp [bumpFirst]
  | n + 1, 0, h => by omega
  | n + 1, p + 1, h => by
    rw [List.replicate_succ, bumpFirst, bumpFirst_replicate v n p (by omega)]
    simp [bind, Except.bind, pure, Except.pure, List.replicate_succ]

theorem splitSize_closed {procs rank : Nat} (size : Nat) (h : rank < procs) :
    splitSize procs rank size = .ok (size / procs + if rank < size % procs then 1 else 0) := by
  have idx : ∀ (a b x y : Nat), rank < a + b →
      pyIndex (List.replicate a x ++ List.replicate b y) rank = .ok (if rank < a then x else y) := by
    intro a b x y hr
    unfold pyIndex
    by_cases e : rank < a
    · rw [List.getElem?_append_left (by simpa using e), List.getElem?_replicate, if_pos e, if_pos e]
    · rw [List.getElem?_append_right (by simpa using e), List.getElem?_replicate, List.length_replicate,
        if_pos (by omega), if_neg e]
  unfold splitSize
  by_cases h1 : size < procs
  · rw [if_pos h1, idx _ _ _ _ (by omega), Nat.div_eq_of_lt h1, Nat.mod_eq_of_lt h1, Nat.zero_add]
  · rw [if_neg h1, if_neg (by omega)]
    by_cases h2 : size % procs ≠ 0
    · have hm := Nat.mod_lt size (show procs > 0 by omega)
      rw [if_pos h2, bumpFirst_replicate _ _ _ (by omega)]
      simp only [bind, Except.bind]
      rw [idx _ _ _ _ (by omega)]
      split <;> rfl
    · rw [if_neg h2]
      have := idx 0 procs 0 (size / procs) (by omega)
      rw [List.replicate_zero, List.nil_append] at this
      rw [this]
      have h2' : size % procs = 0 := by omega
      simp [h2']

/-- The sizes over all ranks add up to the size, do not increase with the rank and differ by at
most one; every rank gets one. -/
theorem C42_split_size (procs size : Nat) (hp : 0 < procs) : ∃ s : Nat → Nat,
    (∀ rank, rank < procs → splitSize procs rank size = .ok (s rank)) ∧
    ((List.range procs).map s).sum = size ∧
    ∀ r r', r ≤ r' → r' < procs → s r' ≤ s r ∧ s r ≤ s r' + 1 := by
  refine ⟨fun r => size / procs + if r < size % procs then 1 else 0, fun r hr => splitSize_closed size hr, ?_, ?_⟩
  · have hm := Nat.mod_lt size hp
    have key : ∀ m n q : Nat, m ≤ n → ((List.range n).map fun r => q + if r < m then 1 else 0).sum = n * q + m := by
      intro m n q
      induction n generalizing m with
      | zero => intro h; have : m = 0 := by omega
                subst this; simp
      | succ n ih =>
        intro h
        rw [List.range_succ, List.map_append, List.sum_append, List.map_singleton, List.sum_singleton]
        by_cases e : m ≤ n
        · rw [ih m e, if_neg (by omega), Nat.succ_mul]; omega
        · have hm1 : m = n + 1 := by omega
          have hc : ((List.range n).map fun r => q + if r < m then 1 else 0)
              = (List.range n).map fun r => q + if r < n then 1 else 0 := by
            apply List.map_congr_left
            intro r hr
            have := List.mem_range.mp hr
            rw [if_pos (by omega), if_pos this]
          rw [hc, ih n (le_refl n), if_pos (by omega), Nat.succ_mul]; omega
    rw [key _ _ _ hm.le]
    exact Nat.div_add_mod size procs
  · intro r r' h1 h2
    dsimp only
    split <;> split <;> omega

/-- Seven over three processes. -/
example : splitSize 3 0 7 = .ok 3 ∧ splitSize 3 1 7 = .ok 2 ∧ splitSize 3 2 7 = .ok 2 ∧ splitSize 3 1 1 = .ok 0 := by
  decide

/-! ## C43 -/

theorem pyRange_getElem? (stop step : Nat) (hs : 0 < step) : ∀ i start,
    (pyRange start stop step)[i]? = if start + i * step < stop then some (start + i * step) else none := by
  intro i
  induction i with
  | zero =>
    intro start
    rw [pyRange]
    by_cases h : start < stop
    · rw [if_pos ⟨h, hs⟩]; simp [h]
    · rw [if_neg (fun e => h e.1)]; simp [h]
  | succ i ih =>
    intro start
    rw [pyRange]
    by_cases h : start < stop
    · rw [if_pos ⟨h, hs⟩, List.getElem?_cons_succ, ih]
      have : start + step + i * step = start + (i + 1) * step := by ring
      rw [this]
    · rw [if_neg (fun e => h e.1), List.getElem?_nil, if_neg (by nlinarith [Nat.zero_le ((i + 1) * step)])]

theorem splitSeq_part {α : Type} {procs rank : Nat} (seq : List α) (hr : rank < procs) (hl : procs ≤ seq.length) :
    splitSeq procs rank seq = .ok (pySlice seq (rank * (seq.length / procs)) ((rank + 1) * (seq.length / procs))) := by
  have hs : 0 < seq.length / procs := Nat.div_pos hl (by omega)
  have hmul : procs * (seq.length / procs) ≤ seq.length := Nat.mul_div_le _ _
  have hle : (rank + 1) * (seq.length / procs) ≤ procs * (seq.length / procs) := Nat.mul_le_mul_right _ hr
  have hsucc : (rank + 1) * (seq.length / procs) = rank * (seq.length / procs) + seq.length / procs := by ring
  unfold splitSeq
  rw [if_neg (by omega), if_neg (by omega)]
  dsimp only
  have h1 : (pyRange 0 seq.length (seq.length / procs))[rank]? = some (rank * (seq.length / procs)) := by
    rw [pyRange_getElem? _ _ hs, Nat.zero_add, if_pos (by omega)]
  have h2 : ((pyRange 0 seq.length (seq.length / procs)).drop 1 ++ [seq.length])[rank]?
      = some ((rank + 1) * (seq.length / procs)) := by
    have hlen : rank < (pyRange 0 seq.length (seq.length / procs)).length := by
      by_contra hc
      rw [List.getElem?_eq_none (by omega)] at h1; cases h1
    by_cases e : (rank + 1) * (seq.length / procs) < seq.length
    · have h3 : (pyRange 0 seq.length (seq.length / procs))[rank + 1]? = some ((rank + 1) * (seq.length / procs)) := by
        rw [pyRange_getElem? _ _ hs, Nat.zero_add, if_pos e]
      have hlen' : rank + 1 < (pyRange 0 seq.length (seq.length / procs)).length := by
        by_contra hc
        rw [List.getElem?_eq_none (by omega)] at h3; cases h3
      rw [List.getElem?_append_left (by rw [List.length_drop]; omega), List.getElem?_drop, Nat.add_comm, h3]
    · have h3 : (pyRange 0 seq.length (seq.length / procs))[rank + 1]? = none := by
        rw [pyRange_getElem? _ _ hs, Nat.zero_add, if_neg e]
      have hlen' := List.getElem?_eq_none_iff.mp h3
      have hl' : (pyRange 0 seq.length (seq.length / procs)).length = rank + 1 := by omega
      rw [List.getElem?_append_right (by rw [List.length_drop]; omega), List.length_drop, hl']
      have : seq.length = (rank + 1) * (seq.length / procs) := by omega
      simp [← this]
  have h3 : ((pyRange 0 seq.length (seq.length / procs)).zip
      ((pyRange 0 seq.length (seq.length / procs)).drop 1 ++ [seq.length]))[rank]?
      = some (rank * (seq.length / procs), (rank + 1) * (seq.length / procs)) := by
    rw [List.getElem?_zip_eq_some]
    exact ⟨h1, h2⟩
  unfold pyIndex
  rw [h3]
  rfl

/-- The concatenated parts are the longest prefix with as many entries for every process. -/
theorem C43_split_merge {α : Type} (procs : Nat) (seq : List α) (hl : procs ≤ seq.length) :
    splitMerge procs seq = .ok (seq.take (procs * (seq.length / procs))) := by
  have parts : ((List.range procs).mapM fun rank => splitSeq procs rank seq)
      = .ok ((List.range procs).map fun rank =>
          pySlice seq (rank * (seq.length / procs)) ((rank + 1) * (seq.length / procs))) := by
    have : ∀ l : List Nat, (∀ r ∈ l, r < procs) → (l.mapM fun rank => splitSeq procs rank seq)
      = .ok (l.map fun rank =>
          pySlice seq (rank * (seq.length / procs)) ((rank + 1) * (seq.length / procs))) := by
      intro l
      induction l with
      | nil => intro _; rfl
      | cons r l ih =>
        intro h
        rw [List.mapM_cons, splitSeq_part seq (h r (by simp)) hl, ih fun x hx => h x (by simp [hx])]
        rfl
    exact this _ fun r hr => List.mem_range.mp hr
  unfold splitMerge
  rw [parts]
  simp only [bind, Except.bind, pure, Except.pure, mergeSeq]
  congr 1
  generalize seq.length / procs = s
  clear parts hl
  induction procs with
  | zero => simp
  | succ n ih =>
    rw [List.range_succ, List.map_append, List.flatten_append, ih, List.map_singleton, List.flatten_singleton]
    unfold pySlice
    have h1 := List.take_append_drop (n * s) (seq.take ((n + 1) * s))
    rw [List.take_take, Nat.min_eq_left (Nat.mul_le_mul_right _ (Nat.le_succ n))] at h1
    exact h1

/-- Splitting and merging gives the sequence back when its length is a multiple of the number of
processes. Missing: all other lengths, where it fails (`C43_tail_refuted`, `C43_short_refuted`). -/
theorem C43_roundtrip_partial {α : Type} (procs : Nat) (seq : List α) (hs : seq ≠ [])
    (hd : procs ∣ seq.length) : splitMerge procs seq = .ok seq := by
  have hpos : 0 < seq.length := List.length_pos_iff.mpr hs
  rw [C43_split_merge procs seq (Nat.le_of_dvd hpos hd), Nat.mul_div_cancel' hd, List.take_length]

example : splitMerge 3 [1, 2, 3, 4, 5, 6] = .ok [1, 2, 3, 4, 5, 6] :=
  C43_roundtrip_partial 3 _ (by decide) (by decide)

/-- When the length is not a multiple of the number of processes, entries at the end are lost. -/
theorem C43_tail_refuted {α : Type} (procs : Nat) (seq : List α) (hl : procs ≤ seq.length)
    (hd : ¬ procs ∣ seq.length) : ∃ l x tail, splitMerge procs seq = .ok l ∧ seq = l ++ x :: tail := by
  have hlt : procs * (seq.length / procs) < seq.length := by
    rcases Nat.lt_or_ge (procs * (seq.length / procs)) seq.length with h | h
    · exact h
    · exact absurd ⟨_, (Nat.le_antisymm (Nat.mul_div_le _ _) h).symm⟩ hd
  have h0 := C43_split_merge procs seq hl
  generalize procs * (seq.length / procs) = m at h0 hlt
  refine ⟨seq.take m, seq[m], seq.drop (m + 1), h0, ?_⟩
  rw [← List.drop_eq_getElem_cons hlt, List.take_append_drop]

example : splitMerge 2 [1, 2, 3, 4, 5] = .ok [1, 2, 3, 4] :=
  C43_split_merge 2 _ (by decide)

/-- With fewer entries than processes, in particular with no entries at all, splitting fails on
every process. -/
theorem C43_short_refuted {α : Type} (procs rank : Nat) (seq : List α) (hl : seq.length < procs) :
    splitSeq procs rank seq = .error .ValueError := by
  unfold splitSeq
  rw [if_neg (by omega), if_pos (Nat.div_eq_of_lt hl)]

/-! ## C59 -/

/-- Hours, minutes and seconds add up to the time; minutes and seconds are below sixty. -/
theorem C59_convert_time {K : Type} [Field K] [LinearOrder K] [IsStrictOrderedRing K] [FloorRing K] (sec : K)
    (h : 0 ≤ sec) (hh mm : ℤ) (ss : K) (e : convertTime sec = (hh, mm, ss)) :
    (hh : K) * 3600 + mm * 60 + ss = sec ∧ 0 ≤ hh ∧ 0 ≤ mm ∧ mm < 60 ∧ 0 ≤ ss ∧ ss < 60 := by
  unfold convertTime at e
  have e1 : pyInt (sec / 3600) = hh := congrArg Prod.fst e
  have e2 : pyInt ((sec - hh * 3600) / 60) = mm := by rw [← e1]; exact congrArg (·.2.1) e
  have e3 : sec - hh * 3600 - mm * 60 = ss := by rw [← e2, ← e1]; exact congrArg (·.2.2) e
  have hx : 0 ≤ sec / 3600 := by positivity
  unfold pyInt at e1 e2
  rw [if_pos hx] at e1
  have h1 : (hh : K) ≤ sec / 3600 := e1 ▸ Int.floor_le _
  have h2 : sec / 3600 < hh + 1 := e1 ▸ Int.lt_floor_add_one _
  rw [le_div_iff₀ (by norm_num)] at h1
  rw [div_lt_iff₀ (by norm_num)] at h2
  have hy : 0 ≤ (sec - hh * 3600) / 60 := by
    apply div_nonneg _ (by norm_num); linarith
  rw [if_pos hy] at e2
  have h3 : (mm : K) ≤ (sec - hh * 3600) / 60 := e2 ▸ Int.floor_le _
  have h4 : (sec - hh * 3600) / 60 < mm + 1 := e2 ▸ Int.lt_floor_add_one _
  rw [le_div_iff₀ (by norm_num)] at h3
  rw [div_lt_iff₀ (by norm_num)] at h4
  refine ⟨by rw [← e3]; ring, ?_, ?_, ?_, by linarith, by linarith⟩
  · rw [← e1]; exact Int.floor_nonneg.mpr hx
  · rw [← e2]; exact Int.floor_nonneg.mpr hy
  · have : (mm : K) < 60 := by linarith
    exact_mod_cast this

/-- One hour, two minutes, three and a half seconds. -/
example : convertTime (7447 / 2 : ℚ) = (1, 2, 7 / 2) := by decide +kernel

/-! ## C60 -/

section
variable {K : Type} [Field K] [LinearOrder K] [IsStrictOrderedRing K]

/-- The scalar product. -/
def dot (a x : List K) : K := (List.zipWith (· * ·) a x).sum

/-- The affine function with the rows `a` and constants `c` of `A`. -/
def affine (A : List (List K × K)) (x : List K) : List K := A.map fun r => dot r.1 x + r.2

theorem dot_set {a x : List K} {j : Nat} {aj xj : K} (ha : a[j]? = some aj) (hx : x[j]? = some xj) (y : K) :
    dot a (x.set j y) = dot a x + aj * (y - xj) := by
  induction j generalizing a x with
  | zero =>
    cases a with
    | nil => cases ha
    | cons a0 a =>
      cases x with
      | nil => cases hx
      | cons x0 x =>
        simp only [List.getElem?_cons_zero, Option.some.injEq] at ha hx
        subst ha; subst hx
        simp only [dot, List.set_cons_zero, List.zipWith_cons_cons, List.sum_cons]
        ring
  | succ j ih =>
    cases a with
    | nil => cases ha
    | cons a0 a =>
      cases x with
      | nil => cases hx
      | cons x0 x =>
        rw [List.getElem?_cons_succ] at ha hx
        have := ih ha hx
        simp only [dot, List.set_cons_succ, List.zipWith_cons_cons, List.sum_cons] at this ⊢
        rw [this]; ring

theorem stepOf_pos {h : K} (hh : 0 < h) (x : K) : 0 < stepOf h x := lt_max_of_lt_right hh

theorem diffColumn_affine {A : List (List K × K)} {x : List K} {h : K} {dir : Direction}
    (f : List K → Py (List K)) (hf : ∀ y, y.length = x.length → f y = .ok (affine A y))
    (hA : ∀ r ∈ A, r.1.length = x.length) (hh : 0 < h) (hd : dir ≠ .other) {j : Nat} (hj : j < x.length) :
    ∃ col, diffColumn f x (affine A x) h dir j = .ok col ∧ col.map some = A.map fun r => r.1[j]? := by
  have hx := List.getElem?_eq_getElem hj
  have hpos := stepOf_pos hh x[j]
  have key : ∀ d : K, d ≠ 0 → (List.zipWith (fun a b => (a - b) / d) (affine A (x.set j (x[j] + d))) (affine A x)).map some
      = A.map fun r => r.1[j]? := by
    intro d hd0
    clear hf
    unfold affine
    induction A with
    | nil => rfl
    | cons r A ih =>
      simp only [List.map_cons, List.zipWith_cons_cons]
      have hr := List.getElem?_eq_getElem (l := r.1) (i := j) (by rw [hA r (by simp)]; exact hj)
      rw [ih fun q hq => hA q (by simp [hq]), hr, dot_set hr hx]
      congr 2
      field_simp
      ring
  unfold diffColumn
  rw [hx]
  dsimp only
  cases dir with
  | left =>
    dsimp only
    rw [hf _ (by simp)]
    simp only [bind, Except.bind]
    rw [if_neg (neg_ne_zero.mpr hpos.ne')]
    refine ⟨_, rfl, ?_⟩
    rw [sub_eq_add_neg]
    exact key (-stepOf h x[j]) (neg_ne_zero.mpr hpos.ne')
  | right =>
    dsimp only
    rw [hf _ (by simp)]
    simp only [bind, Except.bind]
    rw [if_neg hpos.ne']
    exact ⟨_, rfl, key (stepOf h x[j]) hpos.ne'⟩
  | other => exact absurd rfl hd

theorem columns_affine {A : List (List K × K)} {x : List K} {h : K} {dir : Nat → Direction}
    (f : List K → Py (List K)) (hf : ∀ y, y.length = x.length → f y = .ok (affine A y))
    (hA : ∀ r ∈ A, r.1.length = x.length) (hh : 0 < h) (hd : ∀ j, dir j ≠ .other) :
    ∃ J, (do let fx ← f x; (List.range x.length).mapM fun j => diffColumn f x fx h (dir j) j) = .ok J ∧
      J.length = x.length ∧ ∀ (j : Nat) (col : List K), J[j]? = some col → col.map some = A.map fun r => r.1[j]? := by
  rw [hf x rfl]
  simp only [bind, Except.bind]
  obtain ⟨J, hJ⟩ := mapM_ok_exists (f := fun j => diffColumn f x (affine A x) h (dir j) j) (l := List.range x.length)
    (fun j hj => by
      obtain ⟨c, hc, -⟩ := diffColumn_affine f hf hA hh (hd j) (List.mem_range.mp hj)
      exact ⟨c, hc⟩)
  obtain ⟨jl, jg⟩ := mapM_ok_inv hJ
  rw [List.length_range] at jl
  refine ⟨J, hJ, jl, ?_⟩
  intro j col hcol
  have hj : j < x.length := by
    by_contra hc
    rw [List.getElem?_eq_none (by omega)] at hcol; cases hcol
  obtain ⟨c, hc, hc'⟩ := diffColumn_affine f hf hA hh (hd j) hj
  have := jg j (by simpa using hj) (by omega)
  rw [List.getElem_range, hc] at this
  rw [List.getElem?_eq_getElem (by omega), ← Except.ok.inj this, Option.some.injEq] at hcol
  rw [← hcol]; exact hc'

/-- On an affine function every column of the result is the column of the coefficients, to the
left or to the right and with any positive step. -/
theorem C60_affine (A : List (List K × K)) (x : List K) (h : K) (dir : Direction) (f : List K → Py (List K))
    (hf : ∀ y, y.length = x.length → f y = .ok (affine A y)) (hA : ∀ r ∈ A, r.1.length = x.length)
    (hh : 0 < h) (hd : dir = .left ∨ dir = .right) :
    ∃ J, numericalJacobian f x h dir = .ok J ∧ J.length = x.length ∧
      ∀ (j : Nat) (col : List K), J[j]? = some col → col.map some = A.map fun r => r.1[j]? :=
  columns_affine f hf hA hh (dir := fun _ => dir) fun _ => by rcases hd with rfl | rfl <;> decide

/-- The same for the variant with directions by the kind of the variable. -/
theorem C60_classified (A : List (List K × K)) (x : List K) (h : K) (inter : Nat) (f : List K → Py (List K))
    (hf : ∀ y, y.length = x.length → f y = .ok (affine A y)) (hA : ∀ r ∈ A, r.1.length = x.length) (hh : 0 < h) :
    ∃ J, classifiedJacobian inter f x h = .ok J ∧ J.length = x.length ∧
      ∀ (j : Nat) (col : List K), J[j]? = some col → col.map some = A.map fun r => r.1[j]? :=
  columns_affine f hf hA hh (dir := fun j => if j + 1 ≤ inter then .right else .left) fun j => by
    split <;> decide

/-- Another direction is not rejected; the function fails with an unbound name. -/
theorem C60_other_direction (f : List K → Py (List K)) (x fx : List K) (h : K) (hx : x ≠ []) (hf : f x = .ok fx) :
    numericalJacobian f x h .other = .error .UnboundLocalError := by
  unfold numericalJacobian
  rw [hf]
  simp only [bind, Except.bind]
  cases x with
  | nil => exact absurd rfl hx
  | cons a x =>
    rw [List.length_cons, List.range_succ_eq_map, List.mapM_cons]
    rfl

end

/-- `f(a, b) = (2a + 3b + 1, 4a + 7)`: columns (2, 4) and (3, 0). -/
example : numericalJacobian (K := ℚ) (fun x => .ok (affine [([2, 3], 1), ([4, 0], 7)] x)) [5, -1] (1 / 100) .left
    = .ok [[2, 4], [3, 0]] := by decide +kernel
example : classifiedJacobian (K := ℚ) 1 (fun x => .ok (affine [([2, 3], 1), ([4, 0], 7)] x)) [5, -1] (1 / 100)
    = .ok [[2, 4], [3, 0]] := by decide +kernel

/-! ### The theorems at these cases -/

example := C42_split_size 3 7 (by decide)

example := C43_tail_refuted 2 [1, 2, 3, 4, 5] (by decide) (by decide)

example := C43_short_refuted 4 1 [1, 2, 3] (by decide)

example := C59_convert_time (7447 / 2 : ℚ) (by norm_num) 1 2 (7 / 2) (by decide +kernel)

example := C60_affine (K := ℚ) [([2, 3], 1), ([4, 0], 7)] [5, -1] (1 / 100) .left (fun x => .ok (affine [([2, 3], 1), ([4, 0], 7)] x)) (fun _ _ => rfl) (by decide +kernel)
  (by norm_num) (.inl rfl)

example := C60_classified (K := ℚ) [([2, 3], 1), ([4, 0], 7)] [5, -1] (1 / 100) 1 (fun x => .ok (affine [([2, 3], 1), ([4, 0], 7)] x)) (fun _ _ => rfl) (by decide +kernel)
  (by norm_num)

example := C60_other_direction (K := ℚ) (fun x => .ok (affine [([2, 3], 1), ([4, 0], 7)] x)) [5, -1] _ (1 / 100) (by simp) rfl

end Verif
