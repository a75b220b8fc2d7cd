import Verif.Py.Basic
import Mathlib.Data.List.Perm.Subperm
namespace Verif.Dict
variable {κ : Type _} [DecidableEq κ]

section
variable {ν : Type _}

theorem get?_eq_none {d : Dict κ ν} {k : κ} : get? d k = none ↔ k ∉ keys d := by
  induction d with
  | nil => simp [get?, keys]
  | cons e d ih =>
    obtain ⟨a, v⟩ := e
    simp only [get?, keys, List.map_cons, List.mem_cons, not_or] at *
    split
    · rename_i h; simp [h]
    · rename_i h
      rw [ih]
      constructor
      · intro h'; exact ⟨fun h'' => h h''.symm, h'⟩
      · exact fun h' => h'.2

theorem get?_isSome {d : Dict κ ν} {k : κ} : (get? d k).isSome ↔ k ∈ keys d := by
  rcases h : get? d k with _ | v
  · simp [get?_eq_none.mp h]
  · have : ¬ get? d k = none := by simp [h]
    rw [get?_eq_none] at this
    simpa using this

theorem mem_of_get? {d : Dict κ ν} {k : κ} {v : ν} (h : get? d k = some v) : (k, v) ∈ d := by
  induction d with
  | nil => simp [get?] at h
  | cons e d ih =>
    obtain ⟨a, w⟩ := e
    simp only [get?] at h
    split at h
    · rename_i hak; cases h; simp [hak]
    · simp [ih h]

theorem get?_of_mem {d : Dict κ ν} {k : κ} {v : ν} (hd : (keys d).Nodup) (h : (k, v) ∈ d) :
    get? d k = some v := by
  induction d with
  | nil => simp at h
  | cons e d ih =>
    obtain ⟨a, w⟩ := e
    simp only [keys, List.map_cons, List.nodup_cons] at hd
    simp only [get?]
    rcases List.mem_cons.mp h with h | h
    · cases h; simp
    · have : a ≠ k := by
        intro hak; subst hak; exact hd.1 (List.mem_map.mpr ⟨_, h, rfl⟩)
      simp [this, ih hd.2 h]

theorem get?_set (d : Dict κ ν) (k j : κ) (v : ν) :
    get? (set d k v) j = if k = j then some v else get? d j := by
  induction d with
  | nil => simp [set, get?]
  | cons e d ih =>
    obtain ⟨a, w⟩ := e
    simp only [set]
    split
    · rename_i h; subst h; simp only [get?]; split <;> rfl
    · rename_i h
      simp only [get?, ih]
      by_cases haj : a = j
      · have : k ≠ j := fun hk => h (haj.trans hk.symm)
        simp [haj, this]
      · simp [haj]

theorem mem_keys_set {d : Dict κ ν} {k j : κ} {v : ν} :
    j ∈ keys (set d k v) ↔ j = k ∨ j ∈ keys d := by
  rw [← get?_isSome, ← get?_isSome, get?_set]
  by_cases h : k = j
  · simp [h]
  · have : ¬ j = k := fun h' => h h'.symm
    simp [h, this]

theorem nodup_set {d : Dict κ ν} {k : κ} {v : ν} (hd : (keys d).Nodup) :
    (keys (set d k v)).Nodup := by
  induction d with
  | nil => simp [set, keys]
  | cons e d ih =>
    obtain ⟨a, w⟩ := e
    have hd' : a ∉ keys d ∧ (keys d).Nodup := by simpa [keys] using hd
    simp only [set]
    split
    · simpa [keys] using hd
    · rename_i h
      have : a ∉ keys (set d k v) := by
        rw [mem_keys_set]; simp [h, hd'.1]
      have h2 := ih hd'.2
      simp only [keys, List.map_cons, List.nodup_cons]
      exact ⟨this, h2⟩

theorem eqB_iff [DecidableEq ν] {d1 d2 : Dict κ ν} (h1 : (keys d1).Nodup) (h2 : (keys d2).Nodup) :
    eqB d1 d2 = true ↔ ∀ k, get? d1 k = get? d2 k := by
  constructor
  · intro h
    simp only [eqB, Bool.and_eq_true, beq_iff_eq, List.all_eq_true] at h
    obtain ⟨hlen, hall⟩ := h
    have hsub : keys d1 ⊆ keys d2 := by
      intro k hk
      obtain ⟨e, he, rfl⟩ := List.mem_map.mp hk
      exact get?_isSome.mp (by simp [hall e he])
    have hlen' : (keys d2).length ≤ (keys d1).length := by simp [keys, hlen]
    intro k
    rcases hk : get? d1 k with _ | v
    · rw [get?_eq_none] at hk
      symm; rw [get?_eq_none]
      intro hk2
      -- k ∈ keys d2 \ keys d1 contradicts the lengths
      have hsp : (k :: keys d1).Nodup := List.nodup_cons.mpr ⟨hk, h1⟩
      have hss : (k :: keys d1) ⊆ keys d2 := by
        intro x hx
        rcases List.mem_cons.mp hx with rfl | hx
        · exact hk2
        · exact hsub hx
      have := (List.subperm_of_subset hsp hss).length_le
      simp at this hlen'
      omega
    · symm; simpa using hall (k, v) (mem_of_get? hk)
  · intro h
    simp only [eqB, Bool.and_eq_true, beq_iff_eq, List.all_eq_true]
    constructor
    · have s1 : keys d1 ⊆ keys d2 := fun k hk => by
        rw [← get?_isSome] at *; rwa [← h k]
      have s2 : keys d2 ⊆ keys d1 := fun k hk => by
        rw [← get?_isSome] at *; rwa [h k]
      have l1 := (List.subperm_of_subset h1 s1).length_le
      have l2 := (List.subperm_of_subset h2 s2).length_le
      simp [keys] at l1 l2
      omega
    · intro e he
      rw [← h, get?_of_mem h1 he]

end

theorem get?_bump (d : Dict κ Nat) (k j : κ) (v : Nat) :
    get? (bump d k v) j = if k = j then some ((get? d k).getD 0 + v) else get? d j := by
  induction d with
  | nil => simp [bump, get?]
  | cons e d ih =>
    obtain ⟨a, w⟩ := e
    simp only [bump]
    split
    · rename_i h; subst h; simp only [get?]; split <;> simp
    · rename_i h
      simp only [get?, ih, h, if_false]
      by_cases haj : a = j
      · have : k ≠ j := fun hk => h (haj.trans hk.symm)
        simp [haj, this]
      · simp [haj]

theorem mem_keys_bump {d : Dict κ Nat} {k j : κ} {v : Nat} :
    j ∈ keys (bump d k v) ↔ j = k ∨ j ∈ keys d := by
  rw [← get?_isSome, ← get?_isSome, get?_bump]
  by_cases h : k = j
  · simp [h]
  · have : ¬ j = k := fun h' => h h'.symm
    simp [h, this]

theorem nodup_bump {d : Dict κ Nat} {k : κ} {v : Nat} (hd : (keys d).Nodup) :
    (keys (bump d k v)).Nodup := by
  induction d with
  | nil => simp [bump, keys]
  | cons e d ih =>
    obtain ⟨a, w⟩ := e
    have hd' : a ∉ keys d ∧ (keys d).Nodup := by simpa [keys] using hd
    simp only [bump]
    split
    · simpa [keys] using hd
    · rename_i h
      have : a ∉ keys (bump d k v) := by
        rw [mem_keys_bump]; simp [h, hd'.1]
      have h2 := ih hd'.2
      simp only [keys, List.map_cons, List.nodup_cons]
      exact ⟨this, h2⟩

/-- The number stored under a key, 0 if there is none (used in proofs only). -/
def val (d : Dict κ Nat) (k : κ) : Nat := (get? d k).getD 0

theorem val_bump (d : Dict κ Nat) (k j : κ) (v : Nat) :
    val (bump d k v) j = val d j + if k = j then v else 0 := by
  simp only [val, get?_bump]
  by_cases h : k = j
  · subst h; simp
  · simp [h]

/-- A fold of `bump` accumulates sums. -/
theorem val_foldl_bump {α : Type _} (l : List α) (key : α → κ) (num : α → Nat) (d : Dict κ Nat) (j : κ) :
    val (l.foldl (fun acc x => bump acc (key x) (num x)) d) j
      = val d j + (l.map (fun x => if key x = j then num x else 0)).sum := by
  induction l generalizing d with
  | nil => simp
  | cons x l ih => simp only [List.foldl_cons, ih, val_bump, List.map_cons, List.sum_cons]; omega

theorem mem_keys_foldl_bump {α : Type _} (l : List α) (key : α → κ) (num : α → Nat)
    (d : Dict κ Nat) (j : κ) :
    j ∈ keys (l.foldl (fun acc x => bump acc (key x) (num x)) d)
      ↔ j ∈ keys d ∨ ∃ x ∈ l, key x = j := by
  induction l generalizing d with
  | nil => simp
  | cons x l ih =>
    simp only [List.foldl_cons, ih, mem_keys_bump, List.mem_cons, exists_eq_or_imp]
    constructor
    · rintro ((h | h) | h)
      · exact Or.inr (Or.inl h.symm)
      · exact Or.inl h
      · exact Or.inr (Or.inr h)
    · rintro (h | h | h)
      · exact Or.inl (Or.inr h)
      · exact Or.inl (Or.inl h.symm)
      · exact Or.inr h

theorem nodup_foldl_bump {α : Type _} (l : List α) (key : α → κ) (num : α → Nat)
    (d : Dict κ Nat) (hd : (keys d).Nodup) :
    (keys (l.foldl (fun acc x => bump acc (key x) (num x)) d)).Nodup := by
  induction l generalizing d with
  | nil => simpa
  | cons x l ih => exact ih _ (nodup_bump hd)

theorem get?_eq_val {d : Dict κ Nat} {k : κ} :
    get? d k = if k ∈ keys d then some (val d k) else none := by
  rcases h : get? d k with _ | v
  · rw [get?_eq_none] at h; simp [h]
  · have : k ∈ keys d := get?_isSome.mp (by simp [h])
    simp [this, val, h]

end Verif.Dict
