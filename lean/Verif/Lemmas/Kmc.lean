import Verif.Model.Kmc
import Verif.Lemmas.Py
import Mathlib.Algebra.BigOperators.Group.List.Basic
import Mathlib.Algebra.BigOperators.Ring.List
import Mathlib.Algebra.Order.BigOperators.Group.List
import Mathlib.Algebra.Order.Field.Basic
import Mathlib.Algebra.Order.Ring.Rat
import Mathlib.Data.List.InsertIdx
import Mathlib.Data.List.Forall2
import Mathlib.Tactic.Ring
import Mathlib.Tactic.FieldSimp
import Mathlib.Tactic.Linarith
/-
Helper lemmas for the kMC plugins.
-/
namespace Verif
open Dict

set_option linter.unusedSectionVars false

variable {K : Type}

theorem forall2_flatMap {α β γ : Type} {R : β → γ → Prop} {f : α → List β} {g : α → List γ} : ∀ {l : List α},
    (∀ x ∈ l, List.Forall₂ R (f x) (g x)) → List.Forall₂ R (l.flatMap f) (l.flatMap g)
  | [], _ => by simp
  | x :: l, h => by
    rw [List.flatMap_cons, List.flatMap_cons]
    exact List.rel_append (h x (by simp)) (forall2_flatMap fun y hy => h y (by simp [hy]))

theorem forall2_imp {β γ : Type} {R S : β → γ → Prop} {l : List β} {m : List γ} (h : List.Forall₂ R l m)
    (hi : ∀ a b, R a b → S a b) : List.Forall₂ S l m := by
  induction h with
  | nil => exact .nil
  | cons h _ ih => exact .cons (hi _ _ h) ih

/-! ## Lists -/

theorem sum_flatMap' {α : Type} [AddMonoid K] (f : α → List K) : ∀ l : List α,
    (l.flatMap f).sum = (l.map fun x => (f x).sum).sum
  | [] => by simp
  | x :: l => by simp [sum_flatMap' f l]

theorem sum_modify [AddCommMonoid K] (r : K) : ∀ (l : List K) (i : Nat), i < l.length →
    (l.modify i (· + r)).sum = l.sum + r
  | [], i, h => absurd h (by simp)
  | x :: l, 0, _ => by
    simp only [List.modify_zero_cons, List.sum_cons]
    rw [add_assoc, add_comm r, ← add_assoc]
  | x :: l, i + 1, h => by
    simp only [List.modify_succ_cons, List.sum_cons]
    rw [sum_modify r l i (by simpa using h), add_assoc]

theorem indexOf?_some {l : List Str} {s : Str} {i : Nat} (h : indexOf? l s = some i) : l[i]? = some s := by
  induction l generalizing i with
  | nil => exact nomatch h
  | cons t l ih =>
    unfold indexOf? at h
    split at h
    · rename_i e; cases h; simp [e]
    · cases hi : indexOf? l s with
      | none => rw [hi] at h; exact nomatch h
      | some j =>
        rw [hi] at h
        cases h
        simpa using ih hi

theorem indexOf?_lt {l : List Str} {s : Str} {i : Nat} (h : indexOf? l s = some i) : i < l.length := by
  have := indexOf?_some h
  rcases Nat.lt_or_ge i l.length with h' | h'
  · exact h'
  · rw [List.getElem?_eq_none h'] at this; exact nomatch this

theorem indexOf?_none {l : List Str} {s : Str} : indexOf? l s = none ↔ s ∉ l := by
  induction l with
  | nil => simp [indexOf?]
  | cons t l ih =>
    unfold indexOf?
    split
    · rename_i e; simp [e]
    · rename_i e
      have e' : ¬ s = t := fun h => e h.symm
      simp [ih, e']

theorem indexOf?_nodup {l : List Str} (hn : l.Nodup) {s : Str} {i : Nat} : indexOf? l s = some i ↔ l[i]? = some s := by
  refine ⟨indexOf?_some, fun h => ?_⟩
  cases hj : indexOf? l s with
  | none => exact absurd (List.mem_of_getElem? h) (indexOf?_none.mp hj)
  | some j =>
    have hj' := indexOf?_some hj
    have hlt := indexOf?_lt hj
    rw [(List.getElem?_inj hlt hn).mp (hj'.trans h.symm)]

/-! ## Coverages -/

section Cov
variable [Field K]

/-- The amount added to an index. -/
def idxWeight (possible : List Str) (l : List (K × Str)) (i : Nat) : K :=
  (l.map fun p => if indexOf? possible p.2 = some i then p.1 else 0).sum

theorem collectLoop_length (possible : List Str) : ∀ (l : List (K × Str)) (nt : List K),
    (collectLoop possible l nt).length = nt.length
  | [], nt => rfl
  | (r, e) :: l, nt => by
    unfold collectLoop
    split
    · exact collectLoop_length possible l nt
    · rw [collectLoop_length possible l]; simp

theorem collectLoop_getElem? (possible : List Str) : ∀ (l : List (K × Str)) (nt : List K) (i : Nat),
    (collectLoop possible l nt)[i]? = nt[i]?.map (· + idxWeight possible l i)
  | [], nt, i => by simp [collectLoop, idxWeight]
  | (r, e) :: l, nt, i => by
    unfold collectLoop
    have hw : idxWeight possible ((r, e) :: l) i = (if indexOf? possible e = some i then r else 0) + idxWeight possible l i := by
      simp [idxWeight]
    rw [hw]
    cases he : indexOf? possible e with
    | none =>
      dsimp only
      rw [collectLoop_getElem? possible l nt i]
      simp
    | some j =>
      dsimp only
      rw [collectLoop_getElem? possible l _ i, List.getElem?_modify]
      by_cases h : j = i
      · subst h
        simp [add_assoc, Function.comp_def]
      · have : ¬ (some j = some i) := fun h' => h (Option.some.inj h')
        simp [h]

theorem collectLoop_sum (possible : List Str) : ∀ (l : List (K × Str)) (nt : List K), nt.length = possible.length →
    (collectLoop possible l nt).sum = nt.sum + (l.map fun p => if p.2 ∈ possible then p.1 else 0).sum
  | [], nt, _ => by simp [collectLoop]
  | (r, e) :: l, nt, hn => by
    unfold collectLoop
    cases he : indexOf? possible e with
    | none =>
      dsimp only
      rw [collectLoop_sum possible l nt hn]
      simp [indexOf?_none.mp he]
    | some j =>
      dsimp only
      have hm : e ∈ possible := List.mem_of_getElem? (indexOf?_some he)
      rw [collectLoop_sum possible l _ (by simpa using hn), sum_modify r nt j (by rw [hn]; exact indexOf?_lt he)]
      simp [hm, add_assoc]

theorem zip_cells {ratios : List K} : ∀ {cells : List (List Str)}, (∀ c ∈ cells, c.length = ratios.length) →
    ((List.replicate cells.length ratios).flatten).zip cells.flatten = cells.flatMap fun c => ratios.zip c
  | [], _ => by simp
  | c :: cells, h => by
    rw [List.length_cons, List.replicate_succ, List.flatten_cons, List.flatten_cons, List.flatMap_cons,
      List.zip_append (h c (by simp)).symm, zip_cells fun d hd => h d (by simp [hd])]

theorem cells_length {n : Nat} : ∀ {cells : List (List Str)}, (∀ c ∈ cells, c.length = n) →
    cells.flatten.length = cells.length * n
  | [], _ => by simp
  | c :: cells, h => by
    rw [List.flatten_cons, List.length_append, h c (by simp), cells_length fun d hd => h d (by simp [hd]),
      List.length_cons, Nat.succ_mul, Nat.add_comm]

theorem collectCoverages_cells {ratios : List K} (hr : ratios ≠ []) {cells : List (List Str)} (hc : cells ≠ [])
    (hl : ∀ c ∈ cells, c.length = ratios.length) (possible : List Str) :
    collectCoverages cells.flatten possible ratios =
      .ok ((collectLoop possible (cells.flatMap fun c => ratios.zip c) (List.replicate possible.length 0)).map
        (· / (cells.length : K))) := by
  have h0 : ratios.length ≠ 0 := fun h => hr (List.length_eq_zero_iff.mp h)
  have hn : cells.flatten.length / ratios.length = cells.length := by
    rw [cells_length hl, Nat.mul_div_cancel _ (Nat.pos_of_ne_zero h0)]
  have hc0 : cells.length ≠ 0 := fun h => hc (List.length_eq_zero_iff.mp h)
  unfold collectCoverages
  rw [if_neg h0]
  dsimp only
  rw [hn, zip_cells hl, if_neg (fun h => hc0 h.1)]

/-! ### The compiled version -/

theorem cppBump_modify (e : Str) (r : K) : ∀ (possible : List Str) (nt : List K), possible.Nodup →
    nt.length = possible.length →
    cppBump e r possible nt = match indexOf? possible e with
      | none => nt
      | some i => nt.modify i (· + r)
  | [], nt, _, h => by
    have : nt = [] := List.length_eq_zero_iff.mp h
    subst this
    rfl
  | t :: ts, [], _, h => by simp at h
  | t :: ts, n :: nt, hn, h => by
    have ih := cppBump_modify e r ts nt (List.nodup_cons.mp hn).2 (by simpa using h)
    have step : cppBump e r (t :: ts) (n :: nt) = (if e = t then n + r else n) :: cppBump e r ts nt := rfl
    have idx : indexOf? (t :: ts) e = if t = e then some 0 else (indexOf? ts e).map (· + 1) := rfl
    rw [step, ih, idx]
    by_cases hte : t = e
    · subst hte
      have : indexOf? ts t = none := indexOf?_none.mpr (List.nodup_cons.mp hn).1
      rw [this]
      simp
    · rw [if_neg hte, if_neg (fun h => hte h.symm)]
      cases hi : indexOf? ts e with
      | none => simp
      | some i => simp

theorem cppLoop_cell {possible : List Str} {ratios : List K} (m : Nat) : ∀ (rs pre : List K) (c rest : List Str) (nt : List K),
    ratios = pre ++ rs → c.length = rs.length → possible.Nodup → nt.length = possible.length →
    cppLoop possible ratios (m * ratios.length + pre.length) (c ++ rest) nt =
      cppLoop possible ratios ((m + 1) * ratios.length) rest (collectLoop possible (rs.zip c) nt)
  | [], pre, c, rest, nt, hp, hc, _, _ => by
    have : c = [] := List.length_eq_zero_iff.mp hc
    subst this
    have : pre.length = ratios.length := by rw [hp]; simp
    rw [this, Nat.succ_mul]
    simp [collectLoop]
  | r :: rs, pre, [], rest, nt, hp, hc, _, _ => by simp at hc
  | r :: rs, pre, e :: c, rest, nt, hp, hc, hn, hlen => by
    have hlt : pre.length < ratios.length := by rw [hp]; simp
    have hmod : (m * ratios.length + pre.length) % ratios.length = pre.length := by
      rw [Nat.add_comm, Nat.add_mul_mod_self_right, Nat.mod_eq_of_lt hlt]
    have hget : ratios[(m * ratios.length + pre.length) % ratios.length]? = some r := by
      rw [hmod, hp]; simp
    rw [List.cons_append, cppLoop, hget]
    dsimp only
    have hstep : collectLoop possible ((r, e) :: rs.zip c) nt
        = collectLoop possible (rs.zip c) (cppBump e r possible nt) := by
      rw [cppBump_modify e r possible nt hn hlen, collectLoop]
      cases indexOf? possible e <;> rfl
    rw [List.zip_cons_cons, hstep]
    have hlen' : (cppBump e r possible nt).length = possible.length := by
      unfold cppBump; simp [hlen]
    have := cppLoop_cell (possible := possible) (ratios := ratios) m rs (pre ++ [r]) c rest (cppBump e r possible nt) (by rw [hp]; simp)
      (by simpa using hc) hn hlen'
    rw [List.length_append, List.length_singleton, ← Nat.add_assoc] at this
    exact this

theorem collectLoop_append (possible : List Str) : ∀ (l l' : List (K × Str)) (nt : List K),
    collectLoop possible (l ++ l') nt = collectLoop possible l' (collectLoop possible l nt)
  | [], l', nt => rfl
  | (r, e) :: l, l', nt => by
    rw [List.cons_append, collectLoop, collectLoop]
    cases indexOf? possible e with
    | none => exact collectLoop_append possible l l' nt
    | some i => exact collectLoop_append possible l l' _

theorem cppLoop_cells {possible : List Str} {ratios : List K} (hn : possible.Nodup) : ∀ (cells : List (List Str)) (m : Nat) (nt : List K),
    (∀ c ∈ cells, c.length = ratios.length) → nt.length = possible.length →
    cppLoop possible ratios (m * ratios.length) cells.flatten nt =
      some (collectLoop possible (cells.flatMap fun c => ratios.zip c) nt)
  | [], m, nt, _, _ => by simp [cppLoop, collectLoop]
  | c :: cells, m, nt, h, hl => by
    have h1 := cppLoop_cell (possible := possible) (ratios := ratios) m ratios [] c cells.flatten nt rfl (h c (by simp)) hn hl
    rw [List.length_nil, Nat.add_zero] at h1
    rw [List.flatten_cons, h1, cppLoop_cells hn cells (m + 1) _ (fun d hd => h d (by simp [hd]))
      (by rw [collectLoop_length]; exact hl), List.flatMap_cons, collectLoop_append]

end Cov

/-! ## Occurrences -/

theorem bumpAt_ok {l : List Nat} {i : Nat} (h : i < l.length) : bumpAt l i = .ok (l.modify i (· + 1)) := by
  unfold bumpAt; rw [if_pos h]

/-- How often a process is picked. -/
def pickCount (ks : List (KStep K)) (p : Nat) : Nat := ks.countP fun k => k.picked = p

/-- The list of occurrences that belongs to steps. -/
def Counts (n : Nat) (ks : List (KStep K)) (occ : List Nat) : Prop :=
  occ.length = n ∧ ∀ p, p < n → occ[p]? = some (pickCount ks p)

theorem counts_nil (n : Nat) : Counts n ([] : List (KStep K)) (List.replicate n 0) := by
  refine ⟨by simp, fun p hp => ?_⟩
  simp [pickCount, hp]

theorem counts_bump {n : Nat} {ks : List (KStep K)} {occ : List Nat} (h : Counts n ks occ) (k : KStep K) (hk : k.picked < n) :
    bumpAt occ k.picked = .ok (occ.modify k.picked (· + 1)) ∧ Counts n (ks ++ [k]) (occ.modify k.picked (· + 1)) := by
  refine ⟨bumpAt_ok (by rw [h.1]; exact hk), by simpa using h.1, fun p hp => ?_⟩
  rw [List.getElem?_modify, h.2 p hp]
  unfold pickCount
  rw [List.countP_append]
  by_cases e : k.picked = p
  · simp [e]
  · simp [e]

theorem counts_sum {n : Nat} {ks : List (KStep K)} {occ : List Nat} (h : Counts n ks occ) (hk : ∀ k ∈ ks, k.picked < n) :
    occ.sum = ks.length := by
  have hocc : occ = (List.range n).map (pickCount ks) := by
    apply List.ext_getElem?
    intro p
    by_cases hp : p < n
    · rw [h.2 p hp]; simp [hp]
    · rw [List.getElem?_eq_none (by rw [h.1]; omega), List.getElem?_eq_none (by simp; omega)]
  rw [hocc]
  clear hocc h
  induction ks with
  | nil =>
    rw [List.sum_eq_zero]
    · rfl
    · intro x hx
      obtain ⟨p, _, rfl⟩ := List.mem_map.mp hx
      rfl
  | cons k ks ih =>
    have step : ∀ p, pickCount (k :: ks) p = pickCount ks p + if k.picked = p then 1 else 0 := by
      intro p
      unfold pickCount
      rw [List.countP_cons]
      by_cases e : k.picked = p <;> simp [e]
    have : ((List.range n).map (pickCount (k :: ks))) = (List.range n).map fun p => pickCount ks p + if k.picked = p then 1 else 0 :=
      List.map_congr_left fun p _ => step p
    rw [this, List.sum_map_add, ih fun x hx => hk x (by simp [hx]), List.length_cons]
    congr 1
    have one : ∀ m, k.picked < m → ((List.range m).map fun p => if k.picked = p then 1 else 0).sum = 1 := by
      intro m
      induction m with
      | zero => intro h; omega
      | succ m ihm =>
        intro h
        rw [List.range_succ, List.map_append, List.sum_append]
        by_cases e : k.picked = m
        · have : ((List.range m).map fun p => if k.picked = p then 1 else 0).sum = 0 := by
            rw [List.sum_eq_zero]
            intro x hx
            obtain ⟨p, hp, rfl⟩ := List.mem_map.mp hx
            rw [List.mem_range] at hp
            rw [if_neg (by omega)]
          rw [this]; simp [e]
        · rw [ihm (by omega)]; simp [e]
    exact one n (hk k (by simp))

end Verif
