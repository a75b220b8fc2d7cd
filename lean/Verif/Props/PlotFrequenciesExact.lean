import Verif.Props.PlotFrequencies
/-
C101: exactly when the bars are paired.
-/
namespace Verif
open Dict

theorem mem_even_or_odd {A : Type} {x : A} : ∀ {l : List A}, x ∈ l → x ∈ evenEntries l ∨ x ∈ oddEntries l
  | [], h => by cases h
  | [a], h => .inl h
  | a :: b :: l, h => by
    rcases List.mem_cons.mp h with rfl | h
    · exact .inl (by simp [evenEntries])
    · rcases List.mem_cons.mp h with rfl | h
      · refine .inr ?_
        simp only [oddEntries]
        cases l <;> simp [evenEntries]
      · rcases mem_even_or_odd (l := l) h with h | h
        · exact .inl (by simp [evenEntries, h])
        · refine .inr ?_
          simp only [oddEntries]
          cases l with
          | nil => cases h
          | cons c l => simp only [evenEntries, List.mem_cons]; exact .inr h

theorem evenEntries_sub {A : Type} {x : A} : ∀ {l : List A}, x ∈ evenEntries l → x ∈ l
  | [], h => by cases h
  | [a], h => h
  | a :: b :: l, h => by
    rcases List.mem_cons.mp h with rfl | h
    · simp
    · exact List.mem_cons_of_mem _ (List.mem_cons_of_mem _ (evenEntries_sub h))

theorem oddEntries_sub {A : Type} {x : A} {l : List A} (h : x ∈ oddEntries l) : x ∈ l := by
  cases l with
  | nil => cases h
  | cons a l => exact List.mem_cons_of_mem _ (evenEntries_sub h)

theorem mapM_labels {occ : Dict Str Nat} : ∀ {l : List Str} {k : List (Str × Nat)}, l.mapM (fun r : Str => match get? occ r with
    | some n => (.ok (r, n) : Py (Str × Nat))
    | none => .error .KeyError) = .ok k → k.map (·.1) = l
  | [], k, h => by cases h; rfl
  | a :: l, k, h => by
    rw [List.mapM_cons] at h
    cases ha : get? occ a with
    | none => rw [ha] at h; cases h
    | some n =>
      rw [ha] at h
      cases hl : l.mapM (fun r : Str => match get? occ r with
        | some n => (.ok (r, n) : Py (Str × Nat))
        | none => .error .KeyError) with
      | error e => rw [hl] at h; cases h
      | ok ys =>
        rw [hl] at h
        cases h
        rw [List.map_cons, mapM_labels hl]

/-- The file has an entry for both directions of every reaction. -/
def BothDirections (occ : Dict Str Nat) (rxns : List Str) : Prop :=
  rxns.Nodup ∧ (∀ b ∈ rxns, '(' ∉ b) ∧ ∀ k, k ∈ keys occ ↔ ∃ b ∈ rxns, k = forwardLabel b ∨ k = reverseLabel b

/-- The figure has a place for every reaction of the list, with the forward and the reverse direction of the same reaction and the numbers of the file. -/
def Paired (occ : Dict Str Nat) (order : List Str) : Prop :=
  ∃ f r : Str → Nat, plotFrequencies occ = .ok (order.length, order.map (fun b => (forwardLabel b, f b)), order.map fun b => (reverseLabel b, r b)) ∧
    ∀ b ∈ order, (forwardLabel b, f b) ∈ occ ∧ (reverseLabel b, r b) ∈ occ

/-- **C101** The figure pairs the two directions of all reactions exactly if the file has an entry for both directions of every reaction. -/
theorem C101_iff (occ : Dict Str Nat) (hk : (keys occ).Nodup) :
    (∃ order : List Str, order.Nodup ∧ (∀ b ∈ order, '(' ∉ b) ∧ Paired occ order) ↔ ∃ rxns, BothDirections occ rxns := by
  constructor
  · rintro ⟨order, hn, hm, f, r, hp, hmem⟩
    refine ⟨order, hn, hm, fun k => ⟨fun hk' => ?_, ?_⟩⟩
    · unfold plotFrequencies at hp
      dsimp only [bind, Except.bind] at hp
      split at hp
      · cases hp
      · rename_i fs hfs
        split at hp
        · cases hp
        · rename_i rs hrs
          have e := Except.ok.inj hp
          have e1 : fs = order.map (fun b => (forwardLabel b, f b)) := congrArg (fun t => t.2.1) e
          have e2 : rs = order.map (fun b => (reverseLabel b, r b)) := congrArg (fun t => t.2.2) e
          have l1 := mapM_labels hfs
          have l2 := mapM_labels hrs
          rw [e1, List.map_map] at l1
          rw [e2, List.map_map] at l2
          rcases mem_even_or_odd (mem_sortedSet.mpr hk') with h | h
          · rw [← l1] at h
            obtain ⟨b, hb, rfl⟩ := List.mem_map.mp h
            exact ⟨b, hb, .inl rfl⟩
          · rw [← l2] at h
            obtain ⟨b, hb, rfl⟩ := List.mem_map.mp h
            exact ⟨b, hb, .inr rfl⟩
    · rintro ⟨b, hb, rfl | rfl⟩
      · exact List.mem_map.mpr ⟨_, (hmem b hb).1, rfl⟩
      · exact List.mem_map.mpr ⟨_, (hmem b hb).2, rfl⟩
  · rintro ⟨rxns, hn, hm, hall⟩
    obtain ⟨order, f, r, hperm, h1, h2⟩ := C101_pairs_partial occ hk rxns hn hm hall
    exact ⟨order, hperm.nodup_iff.mpr hn, fun b hb => hm b (hperm.mem_iff.mp hb), f, r, by rw [hperm.length_eq]; exact h1,
      fun b hb => h2 b (hperm.mem_iff.mp hb)⟩

example : (keys exOcc).Nodup ∧ ∃ rxns, BothDirections exOcc rxns := by
  refine ⟨by decide +kernel, [str! "CO_g + *_s -> CO_s", str! "CO_g + *_s -> CO_s1", str! "O2_g + 2*_s -> 2O_s"], by decide, by decide, fun k => ?_⟩
  rw [← mem_pairLabels]
  constructor
  · intro h
    exact (show keys exOcc ⊆ pairLabels [str! "CO_g + *_s -> CO_s", str! "CO_g + *_s -> CO_s1", str! "O2_g + 2*_s -> 2O_s"] by decide +kernel) h
  · intro h
    exact (show pairLabels [str! "CO_g + *_s -> CO_s", str! "CO_g + *_s -> CO_s1", str! "O2_g + 2*_s -> 2O_s"] ⊆ keys exOcc by decide +kernel) h

/-- A file with one direction of one reaction has no figure that pairs them. -/
example : ¬ ∃ rxns, BothDirections [(str! "CO_s + O_s -> CO2_g + 2*_s(->)", 3)] rxns := by
  rintro ⟨rxns, -, -, h⟩
  obtain ⟨b, hb, -⟩ := (h (str! "CO_s + O_s -> CO2_g + 2*_s(->)")).mp (by simp [keys])
  have h1 := (h (forwardLabel b)).mpr ⟨b, hb, .inl rfl⟩
  have h2 := (h (reverseLabel b)).mpr ⟨b, hb, .inr rfl⟩
  simp only [keys, List.map_cons, List.map_nil, List.mem_singleton] at h1 h2
  have := h1.trans h2.symm
  have := List.append_inj_right' this rfl
  exact absurd this (by decide)

end Verif
