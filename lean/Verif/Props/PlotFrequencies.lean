import Verif.Model.PlotScripts
import Verif.Lemmas.Sort
import Verif.Props.Network
namespace Verif
open Dict

/-- Labels of the two directions of a reaction. -/
def forwardLabel (b : Str) : Str := b ++ str! "(->)"
def reverseLabel (b : Str) : Str := b ++ str! "(<-)"

theorem before_append {x y u v : Str} (h : Before x y) (hx : ¬ x <+: y) : Before (x ++ u) (y ++ v) := by
  rcases h with ⟨c, t, e⟩ | ⟨p, c, d, s, t, e1, e2, h⟩
  · exact absurd ⟨c :: t, e.symm⟩ hx
  · exact Or.inr ⟨p, c, d, s ++ u, t ++ v, by rw [e1]; simp, by rw [e2]; simp, h⟩

theorem mark_prefix {a b : Str} (hb : '(' ∉ b) (h : a ++ ['('] <+: b ++ ['(']) : a = b := by
  obtain ⟨t, e⟩ := h
  rcases List.eq_nil_or_concat t with rfl | ⟨t', c, rfl⟩
  · rw [List.append_nil] at e
    exact (List.append_inj_left' e rfl)
  · rw [List.concat_eq_append, ← List.append_assoc] at e
    have := List.append_inj_left' e rfl
    exact absurd (this ▸ by simp : '(' ∈ b) hb

/-- Both directions of every reaction, one reaction after the other. -/
def pairLabels : List Str → List Str
  | [] => []
  | b :: l => forwardLabel b :: reverseLabel b :: pairLabels l

theorem mem_pairLabels {y : Str} {l : List Str} : y ∈ pairLabels l ↔ ∃ b ∈ l, y = forwardLabel b ∨ y = reverseLabel b := by
  induction l with
  | nil => simp [pairLabels]
  | cons b l ih =>
    simp only [pairLabels, List.mem_cons, ih]
    constructor
    · rintro (h | h | ⟨c, hc, h⟩)
      · exact ⟨b, Or.inl rfl, Or.inl h⟩
      · exact ⟨b, Or.inl rfl, Or.inr h⟩
      · exact ⟨c, Or.inr hc, h⟩
    · rintro ⟨c, rfl | hc, h⟩
      · rcases h with h | h
        · exact Or.inl h
        · exact Or.inr (Or.inl h)
      · exact Or.inr (Or.inr ⟨c, hc, h⟩)

theorem sorted_pairLabels {l : List Str} (h : ∀ b ∈ l, '(' ∉ b)
    (hs : l.Pairwise fun a b => Before (a ++ ['(']) (b ++ ['('])) : StrSorted (pairLabels l) := by
  induction l with
  | nil => exact List.Pairwise.nil
  | cons b l ih =>
    rw [List.pairwise_cons] at hs
    have rest := ih (fun c hc => h c (by simp [hc])) hs.2
    have far : ∀ y ∈ pairLabels l, ∀ u, strLt ((b ++ ['(']) ++ u) y = true := by
      intro y hy u
      rw [strLt_iff_before]
      obtain ⟨c, hc, hy⟩ := mem_pairLabels.mp hy
      have hb := hs.1 c hc
      have hx : ¬ (b ++ ['(']) <+: (c ++ ['(']) := by
        intro hp
        have := mark_prefix (h c (by simp [hc])) hp
        subst this
        have := (strLt_iff_before _ _).mpr hb
        rw [strLt_irrefl] at this; cases this
      have key := fun v => before_append (u := u) (v := v) hb hx
      rcases hy with rfl | rfl
      · have := key (str! "->)"); simpa [forwardLabel] using this
      · have := key (str! "<-)"); simpa [reverseLabel] using this
    refine List.pairwise_cons.mpr ⟨?_, List.pairwise_cons.mpr ⟨?_, rest⟩⟩
    · intro y hy
      rcases List.mem_cons.mp hy with rfl | hy
      · rw [strLt_iff_before]
        exact Or.inr ⟨b ++ ['('], '-', '<', str! ">)", str! "-)", by simp [forwardLabel], by simp [reverseLabel], by decide⟩
      · have := far y hy (str! "->)"); simpa [forwardLabel] using this
    · intro y hy
      have := far y hy (str! "<-)"); simpa [reverseLabel] using this

theorem evenEntries_pair (l : List Str) : evenEntries (pairLabels l) = l.map forwardLabel ∧ oddEntries (pairLabels l) = l.map reverseLabel := by
  induction l with
  | nil => exact ⟨rfl, rfl⟩
  | cons b l ih =>
    obtain ⟨h1, h2⟩ := ih
    refine ⟨by simp [pairLabels, evenEntries, h1], ?_⟩
    have : ∀ (x : Str) (m : List Str), evenEntries (x :: m) = x :: oddEntries m := by
      intro x m; cases m <;> rfl
    simp [pairLabels, oddEntries, this, ← h2]

theorem length_pairLabels (l : List Str) : (pairLabels l).length = 2 * l.length := by
  induction l with
  | nil => rfl
  | cons b l ih => simp [pairLabels, ih]; omega

theorem pairLabels_nodup {l : List Str} (h : ∀ b ∈ l, '(' ∉ b) (hn : l.Nodup) : (pairLabels l).Nodup := by
  have hne : ∀ b c : Str, forwardLabel b ≠ reverseLabel c := by
    intro b c e
    have := List.append_inj_right' e rfl
    exact absurd this (by decide)
  induction l with
  | nil => exact List.nodup_nil
  | cons b l ih =>
    rw [List.nodup_cons] at hn
    simp only [pairLabels, List.nodup_cons, List.mem_cons, mem_pairLabels]
    refine ⟨?_, ?_, ih (fun c hc => h c (by simp [hc])) hn.2⟩
    · rintro (e | ⟨c, hc, e | e⟩)
      · exact hne _ _ e
      · have := List.append_inj_left' e rfl; subst this; exact hn.1 hc
      · exact hne _ _ e
    · rintro ⟨c, hc, e | e⟩
      · exact hne _ _ e.symm
      · have := List.append_inj_left' e rfl; subst this; exact hn.1 hc

/-- C101: when the file of the frequency plugin has an entry for both directions of every reaction, the figure pairs each
forward direction with the reverse direction of the same reaction, every reaction once, with the numbers of the file. -/
theorem C101_pairs_partial (occ : Dict Str Nat) (hk : (keys occ).Nodup) (rxns : List Str) (hn : rxns.Nodup)
    (hm : ∀ b ∈ rxns, '(' ∉ b) (hall : ∀ k, k ∈ keys occ ↔ ∃ b ∈ rxns, k = forwardLabel b ∨ k = reverseLabel b) :
    ∃ (order : List Str) (f r : Str → Nat), order.Perm rxns ∧
      plotFrequencies occ = .ok (rxns.length, order.map (fun b => (forwardLabel b, f b)), order.map fun b => (reverseLabel b, r b)) ∧
      ∀ b ∈ rxns, (forwardLabel b, f b) ∈ occ ∧ (reverseLabel b, r b) ∈ occ := by
  -- the order of the reactions by their names and the bracket
  let marked := sortedSet (rxns.map (· ++ ['(']))
  let order := marked.map List.dropLast
  have hmk : ∀ x ∈ marked, ∃ b ∈ rxns, x = b ++ ['('] := by
    intro x hx
    obtain ⟨b, hb, e⟩ := List.mem_map.mp (mem_sortedSet.mp hx)
    exact ⟨b, hb, e.symm⟩
  have hback : order.map (· ++ ['(']) = marked := by
    simp only [order, List.map_map]
    conv_rhs => rw [← List.map_id marked]
    apply List.map_congr_left
    intro x hx
    obtain ⟨b, -, rfl⟩ := hmk x hx
    simp
  have hmem : ∀ b, b ∈ order ↔ b ∈ rxns := by
    intro b
    simp only [order, List.mem_map]
    constructor
    · rintro ⟨x, hx, rfl⟩
      obtain ⟨b, hb, rfl⟩ := hmk x hx
      simpa using hb
    · intro hb
      exact ⟨b ++ ['('], mem_sortedSet.mpr (List.mem_map.mpr ⟨b, hb, rfl⟩), by simp⟩
  have hso : order.Pairwise fun a b => Before (a ++ ['(']) (b ++ ['(']) := by
    have := sorted_sortedSet (rxns.map (· ++ ['(']))
    change StrSorted marked at this
    rw [← hback] at this
    unfold StrSorted at this
    rw [List.pairwise_map] at this
    exact this.imp fun h => (strLt_iff_before _ _).mp h
  have hno : order.Nodup := by
    have : (order.map (· ++ ['('])).Nodup := by rw [hback]; exact (sorted_sortedSet _).nodup
    unfold List.Nodup at this ⊢
    rw [List.pairwise_map] at this
    exact this.imp fun h e => h (by rw [e])
  have hperm : order.Perm rxns := (List.perm_ext_iff_of_nodup hno hn).mpr hmem
  have hom : ∀ b ∈ order, '(' ∉ b := fun b hb => hm b ((hmem b).mp hb)
  have hsorted : sortedSet (keys occ) = pairLabels order := by
    refine StrSorted.ext (sorted_sortedSet _) (sorted_pairLabels hom hso) ?_
    intro x
    rw [mem_sortedSet, hall, mem_pairLabels]
    constructor
    · rintro ⟨b, hb, h⟩; exact ⟨b, (hmem b).mpr hb, h⟩
    · rintro ⟨b, hb, h⟩; exact ⟨b, (hmem b).mp hb, h⟩
  have hlen : occ.length = 2 * rxns.length := by
    have hp : (keys occ).Perm (pairLabels order) :=
      (List.perm_ext_iff_of_nodup hk (pairLabels_nodup hom hno)).mpr fun x => by rw [← hsorted, mem_sortedSet]
    have := hp.length_eq
    rw [length_pairLabels, hperm.length_eq] at this
    simpa [keys] using this
  clear_value order
  have hval : ∀ k ∈ keys occ, get? occ k = some ((get? occ k).getD 0) := by
    intro k hk
    cases hg : get? occ k with
    | none => exact absurd hk (get?_eq_none.mp hg)
    | some m => rfl
  have hf : ∀ b ∈ rxns, forwardLabel b ∈ keys occ := fun b hb => (hall _).mpr ⟨b, hb, Or.inl rfl⟩
  have hr : ∀ b ∈ rxns, reverseLabel b ∈ keys occ := fun b hb => (hall _).mpr ⟨b, hb, Or.inr rfl⟩
  refine ⟨order, fun b => (get? occ (forwardLabel b)).getD 0, fun b => (get? occ (reverseLabel b)).getD 0, hperm, ?_,
    fun b hb => ⟨mem_of_get? (hval _ (hf b hb)), mem_of_get? (hval _ (hr b hb))⟩⟩
  unfold plotFrequencies
  rw [hsorted]
  dsimp only
  rw [(evenEntries_pair order).1, (evenEntries_pair order).2, List.mapM_map, List.mapM_map]
  have m1 := mapM_ok (l := order) (f := fun b => match get? occ (forwardLabel b) with
      | some n => (.ok (forwardLabel b, n) : Py (Str × Nat)) | none => .error .KeyError)
    (g := fun b => (forwardLabel b, (get? occ (forwardLabel b)).getD 0))
    (fun b hb => by rw [hval _ (hf b ((hmem b).mp hb))]; rfl)
  have m2 := mapM_ok (l := order) (f := fun b => match get? occ (reverseLabel b) with
      | some n => (.ok (reverseLabel b, n) : Py (Str × Nat)) | none => .error .KeyError)
    (g := fun b => (reverseLabel b, (get? occ (reverseLabel b)).getD 0))
    (fun b hb => by rw [hval _ (hr b ((hmem b).mp hb))]; rfl)
  show (List.mapM (fun b => match get? occ (forwardLabel b) with
      | some n => (.ok (forwardLabel b, n) : Py (Str × Nat)) | none => .error .KeyError) order >>= fun f =>
      List.mapM (fun b => match get? occ (reverseLabel b) with
      | some n => (.ok (reverseLabel b, n) : Py (Str × Nat)) | none => .error .KeyError) order >>= fun r =>
      pure (occ.length / 2, f, r)) = _
  rw [m1, m2]
  have : occ.length / 2 = rxns.length := by omega
  rw [← this]
  rfl

/-- The hypotheses of `C101_pairs_partial` are met, also when one reaction text begins with another one. -/
def exOcc : Dict Str Nat := [(str! "O2_g + 2*_s -> 2O_s(<-)", 4), (str! "CO_g + *_s -> CO_s(->)", 9), (str! "CO_g + *_s -> CO_s1(->)", 2),
  (str! "CO_g + *_s -> CO_s(<-)", 8), (str! "CO_g + *_s -> CO_s1(<-)", 1), (str! "O2_g + 2*_s -> 2O_s(->)", 5)]

example : ∃ rxns : List Str, rxns.Nodup ∧ (keys exOcc).Nodup ∧ (∀ b ∈ rxns, '(' ∉ b) ∧ pairLabels rxns ⊆ keys exOcc ∧
    keys exOcc ⊆ pairLabels rxns ∧ rxns.length = 3 :=
  ⟨[str! "CO_g + *_s -> CO_s", str! "CO_g + *_s -> CO_s1", str! "O2_g + 2*_s -> 2O_s"],
    by decide, by decide +kernel, by decide, by decide +kernel, by decide +kernel, rfl⟩

example : plotFrequencies exOcc = .ok (3,
    [(str! "CO_g + *_s -> CO_s(->)", 9), (str! "CO_g + *_s -> CO_s1(->)", 2), (str! "O2_g + 2*_s -> 2O_s(->)", 5)],
    [(str! "CO_g + *_s -> CO_s(<-)", 8), (str! "CO_g + *_s -> CO_s1(<-)", 1), (str! "O2_g + 2*_s -> 2O_s(<-)", 4)]) := by
  decide +kernel

/-- C101 fails when a reaction has processes in one direction only: every reaction after it in the order of the names gets
the wrong partner, without any error. -/
theorem C101_one_direction_refuted : plotFrequencies [(str! "CO_s + O_s -> CO2_g + 2*_s(->)", 3),
      (str! "O2_g + 2*_s -> 2O_s(->)", 5), (str! "O2_g + 2*_s -> 2O_s(<-)", 4)] =
    .ok (1, [(str! "CO_s + O_s -> CO2_g + 2*_s(->)", 3), (str! "O2_g + 2*_s -> 2O_s(<-)", 4)], [(str! "O2_g + 2*_s -> 2O_s(->)", 5)]) := by
  decide +kernel

end Verif
