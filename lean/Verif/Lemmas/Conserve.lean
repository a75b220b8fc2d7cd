import Verif.Lemmas.Rxn
namespace Verif
open Re Dict

section generic
variable {κ : Type} [DecidableEq κ]

theorem sum_entries_eq_val {d : Dict κ Nat} (hd : (keys d).Nodup) (j : κ) :
    (d.map (fun e => if e.1 = j then e.2 else 0)).sum = val d j := by
  induction d with
  | nil => simp [val, get?]
  | cons e d ih =>
    obtain ⟨a, v⟩ := e
    have hd' : a ∉ keys d ∧ (keys d).Nodup := by simpa [keys] using hd
    simp only [List.map_cons, List.sum_cons, ih hd'.2, val, get?]
    by_cases h : a = j
    · subst h
      have : get? d a = none := get?_eq_none.mpr hd'.1
      simp [this]
    · simp [h]

theorem val_mergeInto {m d : Dict κ Nat} (hd : (keys d).Nodup) (j : κ) :
    val (mergeInto m d) j = val m j + val d j := by
  unfold mergeInto
  rw [val_foldl_bump d (fun e => e.1) (fun e => e.2), sum_entries_eq_val hd]

theorem mem_keys_mergeInto {m d : Dict κ Nat} (j : κ) :
    j ∈ keys (mergeInto m d) ↔ j ∈ keys m ∨ j ∈ keys d := by
  unfold mergeInto
  rw [mem_keys_foldl_bump d (fun e => e.1) (fun e => e.2)]
  simp [keys]

theorem nodup_mergeInto {m d : Dict κ Nat} (hm : (keys m).Nodup) :
    (keys (mergeInto m d)).Nodup :=
  nodup_foldl_bump d (fun e => e.1) (fun e => e.2) m hm

variable {α : Type} (g : α → Dict κ Nat)

theorem val_foldl_merge (hg : ∀ x, (keys (g x)).Nodup) (l : List α) (m : Dict κ Nat) (j : κ) :
    val (l.foldl (fun m x => mergeInto m (g x)) m) j = val m j + (l.map (fun x => val (g x) j)).sum := by
  induction l generalizing m with
  | nil => simp
  | cons x l ih => simp only [List.foldl_cons, ih, val_mergeInto (hg x), List.map_cons, List.sum_cons]; omega

theorem mem_keys_foldl_merge (l : List α) (m : Dict κ Nat) (j : κ) :
    j ∈ keys (l.foldl (fun m x => mergeInto m (g x)) m) ↔ j ∈ keys m ∨ ∃ x ∈ l, j ∈ keys (g x) := by
  induction l generalizing m with
  | nil => simp
  | cons x l ih => simp only [List.foldl_cons, ih, mem_keys_mergeInto, List.mem_cons, exists_eq_or_imp, or_assoc]

theorem nodup_foldl_merge (l : List α) (m : Dict κ Nat) (hm : (keys m).Nodup) :
    (keys (l.foldl (fun m x => mergeInto m (g x)) m)).Nodup := by
  induction l generalizing m with
  | nil => simpa
  | cons x l ih => exact ih _ (nodup_mergeInto hm)

omit [DecidableEq κ] in
theorem keys_map_val {d : Dict κ Nat} (h : Nat → Nat) :
    keys (d.map fun e => (e.1, h e.2)) = keys d := by
  simp [keys]

theorem get?_map_val {d : Dict κ Nat} (h : Nat → Nat) (k : κ) :
    get? (d.map fun e => (e.1, h e.2)) k = (get? d k).map h := by
  induction d with
  | nil => rfl
  | cons e d ih =>
    obtain ⟨a, v⟩ := e
    simp only [List.map_cons, get?, ih]
    split <;> rfl

end generic

theorem val_elements (f : Formula) (e : Char) :
    val f.elements e = f.stoich * val (speciesElements f.species) e := by
  unfold Formula.elements val
  rw [get?_map_val (fun n => f.stoich * n)]
  cases get? (speciesElements f.species) e <;> simp

theorem keys_elements (f : Formula) : keys f.elements = keys (speciesElements f.species) :=
  keys_map_val (fun n => f.stoich * n)

theorem nodup_elements (f : Formula) : (keys f.elements).Nodup := by
  rw [keys_elements]; exact speciesElements_nodup _

theorem val_stateElements (fs : List Formula) (e : Char) :
    val (stateElements fs) e = (fs.map (fun f => f.stoich * val (speciesElements f.species) e)).sum := by
  unfold stateElements
  rw [val_foldl_merge Formula.elements nodup_elements]
  simp only [val_elements]
  simp [val, get?]

theorem mem_keys_stateElements (fs : List Formula) (e : Char) :
    e ∈ keys (stateElements fs) ↔ ∃ f ∈ fs, e ∈ keys (speciesElements f.species) := by
  unfold stateElements
  rw [mem_keys_foldl_merge Formula.elements]
  simp only [keys_elements]
  simp [keys]

theorem nodup_stateElements (fs : List Formula) : (keys (stateElements fs)).Nodup :=
  nodup_foldl_merge _ _ _ (by simp [keys])

/-- The site entry a formula contributes. -/
def siteEntry (f : Formula) : Dict Str Nat :=
  f.sites.filter fun e => ¬ (e.1 = ['g'] ∨ e.1 = ['l'])

theorem siteEntry_eq (f : Formula) : siteEntry f =
    if f.site = ['g'] ∨ f.site = ['l'] then [] else [(f.site, f.nsite * f.stoich)] := by
  unfold siteEntry Formula.sites
  by_cases h1 : f.site = ['g']
  · simp [h1]
  · by_cases h2 : f.site = ['l'] <;> simp [h1, h2]

theorem nodup_siteEntry (f : Formula) : (keys (siteEntry f)).Nodup := by
  rw [siteEntry_eq]; split <;> simp [keys]

theorem val_siteEntry (f : Formula) (x : Str) : val (siteEntry f) x =
    if f.site = x ∧ x ≠ ['g'] ∧ x ≠ ['l'] then f.stoich * f.nsite else 0 := by
  rw [siteEntry_eq]
  by_cases h : f.site = x
  · subst h
    by_cases hg : f.site = ['g']
    · simp [hg, val, get?]
    · by_cases hl : f.site = ['l']
      · simp [hl, val, get?]
      · simp [hg, hl, val, get?, Nat.mul_comm]
  · simp only [h, false_and, if_false]
    split <;> simp [val, get?, h]

theorem stateSites_eq (fs : List Formula) :
    stateSites fs = fs.foldl (fun m f => mergeInto m (siteEntry f)) [] := rfl

theorem val_stateSites (fs : List Formula) (x : Str) : val (stateSites fs) x =
    (fs.map (fun f => if f.site = x ∧ x ≠ ['g'] ∧ x ≠ ['l'] then f.stoich * f.nsite else 0)).sum := by
  rw [stateSites_eq, val_foldl_merge siteEntry nodup_siteEntry]
  simp only [val_siteEntry]
  simp [val, get?]

theorem mem_keys_stateSites (fs : List Formula) (x : Str) :
    x ∈ keys (stateSites fs) ↔ ∃ f ∈ fs, f.site = x ∧ x ≠ ['g'] ∧ x ≠ ['l'] := by
  rw [stateSites_eq, mem_keys_foldl_merge siteEntry]
  simp only [siteEntry_eq]
  constructor
  · rintro (h | ⟨f, hf, h⟩)
    · simp [keys] at h
    · split at h
      · simp [keys] at h
      · rename_i hn
        simp [keys] at h
        subst h
        exact ⟨f, hf, rfl, fun h => hn (Or.inl h), fun h => hn (Or.inr h)⟩
  · rintro ⟨f, hf, rfl, h1, h2⟩
    exact Or.inr ⟨f, hf, by simp [h1, h2, keys]⟩

theorem nodup_stateSites (fs : List Formula) : (keys (stateSites fs)).Nodup :=
  nodup_foldl_merge _ _ _ (by simp [keys])

/-- Two dictionaries with positive values are equal iff all numbers agree. -/
theorem eqB_iff_val {κ : Type} [DecidableEq κ] {d1 d2 : Dict κ Nat}
    (h1 : (keys d1).Nodup) (h2 : (keys d2).Nodup)
    (p1 : ∀ k ∈ keys d1, 0 < val d1 k) (p2 : ∀ k ∈ keys d2, 0 < val d2 k) :
    eqB d1 d2 = true ↔ ∀ k, val d1 k = val d2 k := by
  rw [eqB_iff h1 h2]
  constructor
  · intro h k; simp [val, h k]
  · intro h k
    rw [get?_eq_val, get?_eq_val, h k]
    have key : k ∈ keys d1 ↔ k ∈ keys d2 := by
      constructor
      · intro hk
        have := p1 k hk
        apply Classical.byContradiction
        intro hn
        have : val d2 k = 0 := by simp [val, get?_eq_none.mpr hn]
        have := h k; omega
      · intro hk
        have := p2 k hk
        apply Classical.byContradiction
        intro hn
        have : val d1 k = 0 := by simp [val, get?_eq_none.mpr hn]
        have := h k; omega
    by_cases hk : k ∈ keys d1
    · simp [hk, key.mp hk]
    · have hk2 : k ∉ keys d2 := fun h' => hk (key.mpr h')
      simp [hk, hk2]

theorem sum_pos_of_mem {α : Type} {l : List α} {g : α → Nat} {x : α} (hx : x ∈ l) (h : 0 < g x) :
    0 < (l.map g).sum := by
  induction l with
  | nil => simp at hx
  | cons y l ih =>
    rcases List.mem_cons.mp hx with rfl | hx
    · simp; omega
    · have := ih hx; simp; omega

theorem species_count_pos {f : Spec.Formula} (hpos : f.pos) {e : Char}
    (h : f.sp.mentions e = true) : 0 < f.sp.count e := by
  cases hsp : f.sp with
  | emptySite => simp [hsp, Spec.Species.mentions] at h
  | mol ts =>
    have hp := hpos.2.2
    rw [hsp] at hp h
    simp only [Spec.Species.mentions, List.any_eq_true] at h
    obtain ⟨t, ht, hm⟩ := h
    apply sum_pos_of_mem ht
    cases t with
    | dash => simp [Spec.Tok.mentions] at hm
    | elem c n =>
      simp only [Spec.Tok.mentions, beq_iff_eq] at hm
      simp only [Spec.Tok.count, hm, if_true]
      cases n with
      | none => simp
      | some n => exact hp _ ht c n rfl

theorem count_ofSpec {s : Spec.State} (h : s.ok = true) (e : Char) :
    val (stateElements (s.map ofSpec)) e = s.count e := by
  obtain ⟨-, hf⟩ := state_ok_parts h
  rw [val_stateElements, List.map_map]
  unfold Spec.State.count
  congr 1
  apply List.map_congr_left
  intro f hfs
  simp [ofSpec, Spec.Formula.count, val_speciesElements (formula_ok_parts (hf f hfs)).1]

theorem siteCount_ofSpec (s : Spec.State) (x : Str) :
    val (stateSites (s.map ofSpec)) x = s.siteCount x := by
  rw [val_stateSites, List.map_map]
  rfl

theorem elements_pos {s : Spec.State} (h : s.ok = true) (hp : s.pos) :
    ∀ k ∈ keys (stateElements (s.map ofSpec)), 0 < val (stateElements (s.map ofSpec)) k := by
  obtain ⟨-, hf⟩ := state_ok_parts h
  intro e he
  rw [count_ofSpec h]
  rw [mem_keys_stateElements] at he
  obtain ⟨g, hg, he⟩ := he
  obtain ⟨f, hfs, rfl⟩ := List.mem_map.mp hg
  have hm := (mem_keys_speciesElements (formula_ok_parts (hf f hfs)).1 e).mp he
  apply sum_pos_of_mem hfs
  exact Nat.mul_pos (hp f hfs).1 (species_count_pos (hp f hfs) hm)

theorem sites_pos {s : Spec.State} (hp : s.pos) :
    ∀ k ∈ keys (stateSites (s.map ofSpec)), 0 < val (stateSites (s.map ofSpec)) k := by
  intro x hx
  rw [siteCount_ofSpec]
  rw [mem_keys_stateSites] at hx
  obtain ⟨g, hg, he, h1, h2⟩ := hx
  obtain ⟨f, hfs, rfl⟩ := List.mem_map.mp hg
  apply sum_pos_of_mem hfs
  have : f.site = x := he
  simp only [Spec.Formula.siteCount, this, h1, h2, ne_eq, not_false_eq_true, and_self, if_true]
  exact Nat.mul_pos (hp f hfs).1 (hp f hfs).2.1

/-- Balance of two specified states. -/
def balanced2 (s t : Spec.State) : Prop :=
  (∀ e, s.count e = t.count e) ∧ (∀ x, s.siteCount x = t.siteCount x)

theorem conserve_ofSpec {s t : Spec.State} (hs : s.ok = true) (ht : t.ok = true)
    (ps : s.pos) (pt : t.pos) :
    (balanced2 s t ∧ stateConserve s.text t.text = .ok true) ∨
    (¬ balanced2 s t ∧ stateConserve s.text t.text = .error .ValueError) := by
  have e1 : eqB (stateElements (s.map ofSpec)) (stateElements (t.map ofSpec)) = true ↔
      ∀ e, s.count e = t.count e := by
    rw [eqB_iff_val (nodup_stateElements _) (nodup_stateElements _) (elements_pos hs ps)
      (elements_pos ht pt)]
    simp only [count_ofSpec hs, count_ofSpec ht]
  have e2 : eqB (stateSites (s.map ofSpec)) (stateSites (t.map ofSpec)) = true ↔
      ∀ x, s.siteCount x = t.siteCount x := by
    rw [eqB_iff_val (nodup_stateSites _) (nodup_stateSites _) (sites_pos ps) (sites_pos pt)]
    simp only [siteCount_ofSpec]
  have hred : stateConserve s.text t.text = conserveFormulas (s.map ofSpec) (t.map ofSpec) := by
    unfold stateConserve
    rw [stateFormulas_ofSpec hs, stateFormulas_ofSpec ht]
    rfl
  rw [hred]
  unfold conserveFormulas
  by_cases h1 : eqB (stateElements (s.map ofSpec)) (stateElements (t.map ofSpec)) = true
  · by_cases h2 : eqB (stateSites (s.map ofSpec)) (stateSites (t.map ofSpec)) = true
    · left; exact ⟨⟨e1.mp h1, e2.mp h2⟩, by simp [h1, h2]⟩
    · right; exact ⟨fun h => h2 (e2.mpr h.2), by simp [h1, h2]⟩
  · right; exact ⟨fun h => h1 (e1.mpr h.1), by simp [h1]⟩

end Verif
