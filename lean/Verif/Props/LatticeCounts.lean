import Verif.Props.LatticeMixing
import Verif.Props.LatticeMean
import Verif.Props.Kmc
/-
Property C126: the numbers of events that the analysis plugins report account for the change of the lattice. The engine is not
modelled: a run is any sequence of jumps that processes of the list allow.
-/
namespace Verif
open Dict Classical
set_option linter.unusedSectionVars false

variable {S C : Type} [Fintype S]

/-! ### specification -/

/-- A run of the lattice: the processes with these numbers happen one after another, each at one of its places. -/
inductive History (place : C → Int → List (List S)) (procs : List (KProc ℝ C)) : (S → Str) → List Nat → (S → Str) → Prop
  | nil (c) : History place procs c [] c
  | step {c c' c'' : S → Str} {i : Nat} {is : List Nat} {p : KProc ℝ C} {a : List S} : procs[i]? = some p → a ∈ place p.coords p.basis →
      Moves p.before p.after a c c' → History place procs c' is c'' → History place procs c (i :: is) c''

/-- What a process definition does to the sum of a quantity over the sites. -/
def change (φ : Str → ℝ) (before after : List Str) : ℝ := typesEnergy φ after - typesEnergy φ before

/-- Net number that a dictionary of labels gives for a reaction: forward less backward. -/
def netEvents {V : Type} (d : Dict Str V) (f : V → ℝ) (r : Str) : ℝ :=
  ((get? d (r ++ str! "(->)")).map f).getD 0 - ((get? d (r ++ str! "(<-)")).map f).getD 0

/-- Mean number of events of a process in unit time: its rate, once for each place at which it can happen. -/
noncomputable def eventRate [DecidableEq S] (place : C → Int → List (List S)) (p : KProc ℝ C) (types : List Str) (q : Config S types → ℝ) : ℝ :=
  ∑ c, q c * ((place p.coords p.basis).map fun a => if ∃ c' : S → Str, Moves p.before p.after a (fun s => (c s).1) c' then p.rate else 0).sum

/-! ### helpers -/

theorem History.lt {place : C → Int → List (List S)} {procs : List (KProc ℝ C)} {c c' : S → Str} {is : List Nat}
    (h : History place procs c is c') : ∀ i ∈ is, i < procs.length := by
  induction h with
  | nil c => simp
  | step h1 h2 h3 _ ih =>
    intro i hi
    rcases List.mem_cons.mp hi with rfl | hi
    · exact (List.getElem?_eq_some_iff.mp h1).1
    · exact ih i hi

theorem History.append {place : C → Int → List (List S)} {procs : List (KProc ℝ C)} {c c1 c' : S → Str} {is js : List Nat}
    (h : History place procs c is c1) (h' : History place procs c1 js c') : History place procs c (is ++ js) c' := by
  induction h with
  | nil c => exact h'
  | step h1 h2 h3 _ ih => exact .step h1 h2 h3 (ih h')

theorem history_sum {place : C → Int → List (List S)} {procs : List (KProc ℝ C)} (hp : ∀ p ∈ procs, ∀ a ∈ place p.coords p.basis, a.Nodup)
    (hw : ∀ p ∈ procs, WildSame p.before p.after) (φ : Str → ℝ) {c c' : S → Str} {is : List Nat} (h : History place procs c is c') :
    (∑ s, φ (c' s)) - ∑ s, φ (c s) = ∑ i : Fin procs.length, (is.count i.1 : ℝ) * change φ procs[i].before procs[i].after := by
  induction h with
  | nil c => simp
  | @step c c1 c2 i is p a h1 h2 h3 _ ih =>
    obtain ⟨hi, rfl⟩ := List.getElem?_eq_some_iff.mp h1
    have hm : procs[i] ∈ procs := List.getElem_mem hi
    have e := moves_energy φ (hp _ hm a h2) (hw _ hm) h3
    have e2 : ∑ j : Fin procs.length, ((i :: is).count j.1 : ℝ) * change φ procs[j].before procs[j].after
        = (∑ j : Fin procs.length, (is.count j.1 : ℝ) * change φ procs[j].before procs[j].after)
          + change φ procs[i].before procs[i].after := by
      have : ∀ j : Fin procs.length, ((i :: is).count j.1 : ℝ) * change φ procs[j].before procs[j].after
          = (is.count j.1 : ℝ) * change φ procs[j].before procs[j].after
            + if j = ⟨i, hi⟩ then change φ procs[i].before procs[i].after else 0 := by
        intro j
        rw [List.count_cons]
        by_cases hj : j = ⟨i, hi⟩
        · subst hj; simp; ring
        · have : ¬ i = j.1 := fun e => hj (Fin.ext e.symm)
          simp [this, hj]
      simp only [this]
      rw [Finset.sum_add_distrib]
      simp
    rw [e2, ← ih]
    unfold change
    linarith

theorem zip_sum {α : Type} (m : List α) (occ : List Nat) (n : Nat) (h1 : occ.length = n) (h2 : m.length = n) (g : Nat → α → ℝ) :
    ((occ.zip m).map fun p => g p.1 p.2).sum = ∑ i : Fin n, g (occ[i.1]'(by omega)) (m[i.1]'(by omega)) := by
  rw [← List.sum_ofFn]
  congr 1
  apply List.ext_getElem (by simp [h1, h2])
  intro i hi hi'
  simp

theorem labelSum_fin (m : List Str) (occ : List Nat) (n : Nat) (h1 : occ.length = n) (h2 : m.length = n) (r : Str) :
    (labelSum m occ r : ℝ) = ∑ i : Fin n, if m[i.1]'(by omega) = r then ((occ[i.1]'(by omega) : Nat) : ℝ) else 0 := by
  rw [← zip_sum m occ n h1 h2 fun a b => if b = r then (a : ℝ) else 0]
  unfold labelSum
  rw [Nat.cast_list_sum, List.map_map]
  congr 1
  apply List.map_congr_left
  intro p _
  simp only [Function.comp]
  split <;> simp

theorem labelSum_absent {m : List Str} {occ : List Nat} {r : Str} (h : r ∉ m) : labelSum m occ r = 0 := by
  unfold labelSum
  apply List.sum_eq_zero
  intro x hx
  obtain ⟨p, hp, rfl⟩ := List.mem_map.mp hx
  rw [if_neg]
  rintro rfl
  exact h (List.of_mem_zip (a := p.1) (b := p.2) hp).2

theorem arrows_ne (r r' : Str) : r ++ str! "(->)" ≠ r' ++ str! "(<-)" := by
  intro h
  have := congrArg List.getLast? h
  have h2 := congrArg (fun l => l.reverse.take 2) h
  simp at h2

theorem arrow_inj {r r' l : Str} (h : r ++ l = r' ++ l) : r = r' := List.append_cancel_right h

/-- Sums over the processes, sorted by the labels. -/
theorem by_label {o : KmcOwner ℝ} {ds : List (ProcDict C)} {procs : List (KProc ℝ C)} {m : List Str}
    (hm : List.Forall₂ (Described o ds) procs m) (φ D : Str → ℝ) (hD : ∀ d ∈ ds, change φ d.before d.after = D d.reaction)
    (rs : List Str) (hn : rs.Nodup) (hrs : ∀ d ∈ ds, d.reaction ∈ rs) (occ : List Nat) (ho : occ.length = procs.length) :
    ∑ i : Fin procs.length, ((occ[i.1]'(by omega) : Nat) : ℝ) * change φ procs[i].before procs[i].after
      = (rs.map fun r => D r * ((labelSum m occ (r ++ str! "(->)") : ℝ) - (labelSum m occ (r ++ str! "(<-)") : ℝ))).sum := by
  have hl : m.length = procs.length := hm.length_eq.symm
  rw [← List.sum_toFinset _ hn]
  simp only [labelSum_fin m occ procs.length ho hl]
  have : ∀ r ∈ rs.toFinset, D r * ((∑ i : Fin procs.length, if m[i.1]'(by omega) = r ++ str! "(->)" then ((occ[i.1]'(by omega) : Nat) : ℝ) else 0)
        - ∑ i : Fin procs.length, if m[i.1]'(by omega) = r ++ str! "(<-)" then ((occ[i.1]'(by omega) : Nat) : ℝ) else 0)
      = ∑ i : Fin procs.length, D r * ((if m[i.1]'(by omega) = r ++ str! "(->)" then ((occ[i.1]'(by omega) : Nat) : ℝ) else 0)
        - if m[i.1]'(by omega) = r ++ str! "(<-)" then ((occ[i.1]'(by omega) : Nat) : ℝ) else 0) := by
    intro r _
    rw [← Finset.sum_sub_distrib, Finset.mul_sum]
  rw [Finset.sum_congr rfl this, Finset.sum_comm]
  refine Finset.sum_congr rfl fun i _ => ?_
  have hi := i.2
  have hd : Described o ds (procs[i.1]'hi) (m[i.1]'(by omega)) := by
    have := List.forall₂_iff_get.mp hm
    exact this.2 i.1 hi (by omega)
  obtain ⟨d, hd, rf, rr, _, _, _, h⟩ := hd
  rw [Finset.sum_eq_single_of_mem d.reaction (by simpa using hrs d hd)]
  · rcases h with ⟨e1, e2, e3, _⟩ | ⟨e1, e2, e3, _⟩
    · show _ * change φ (procs[i.1]'hi).before (procs[i.1]'hi).after = _
      rw [e1, e2, e3, if_pos rfl, if_neg (arrows_ne _ _), hD d hd]; ring
    · show _ * change φ (procs[i.1]'hi).before (procs[i.1]'hi).after = _
      rw [e1, e2, e3, if_pos rfl, if_neg (fun e => arrows_ne _ _ e.symm), ← hD d hd]
      unfold change; ring
  · intro r _ hne
    rcases h with ⟨e1, _⟩ | ⟨e1, _⟩
    · rw [e1, if_neg (fun e => hne (arrow_inj e).symm), if_neg (arrows_ne _ _)]; ring
    · rw [e1, if_neg (fun e => arrows_ne _ _ e.symm), if_neg (fun e => hne (arrow_inj e).symm)]; ring

theorem procs_wild {o : KmcOwner ℝ} {ds : List (ProcDict C)} {procs : List (KProc ℝ C)} {m : List Str}
    (hm : List.Forall₂ (Described o ds) procs m) (hw : ∀ d ∈ ds, WildSame d.before d.after) : ∀ p ∈ procs, WildSame p.before p.after := by
  intro p hp
  obtain ⟨i, hi, rfl⟩ := List.getElem_of_mem hp
  obtain ⟨d, hd, _, _, _, _, _, h⟩ := (List.forall₂_iff_get.mp hm).2 i hi (by rw [← hm.length_eq]; exact hi)
  simp only [List.get_eq_getElem] at h
  rcases h with ⟨_, e2, e3, _⟩ | ⟨_, e2, e3, _⟩
  · rw [e2, e3]; exact hw d hd
  · rw [e2, e3]; exact (hw d hd).symm

theorem process_fast {o : KmcOwner ℝ} {ds : List (ProcDict C)} {m0 m : List Str} {procs : List (KProc ℝ C)}
    (h : getProcesses o ds m0 = (.ok procs, m)) {p : KProc ℝ C} (hp : p ∈ procs) : ∃ d ∈ ds, p.fast = d.fast := by
  induction ds generalizing m0 m procs with
  | nil =>
    have h1 : [] = procs := Except.ok.inj (congrArg Prod.fst h)
    subst h1
    exact absurd hp List.not_mem_nil
  | cons d ds ih =>
    obtain ⟨qs, qs', m1, h1, h2, rfl⟩ := processes_cons h
    rcases List.mem_append.mp hp with hp | hp
    · obtain ⟨rf, rr, hrate, hq, -⟩ := single_spec h1
      refine ⟨d, List.mem_cons_self, ?_⟩
      rw [hq, List.mem_flatMap] at hp
      obtain ⟨y, hy, hp⟩ := hp
      obtain ⟨b, -, hy⟩ := List.mem_flatMap.mp hy
      obtain ⟨x, -, rfl⟩ := List.mem_map.mp hy
      simp only [processPair, List.mem_cons] at hp
      rcases hp with rfl | hp
      · rfl
      · split at hp
        · exact absurd hp List.not_mem_nil
        · rw [List.mem_singleton] at hp
          subst hp
          rfl
    · obtain ⟨d', hd', rest⟩ := ih h2 hp
      exact ⟨d', List.mem_cons_of_mem _ hd', rest⟩

theorem all_slow {o : KmcOwner ℝ} {ds : List (ProcDict C)} {procs : List (KProc ℝ C)} {m : List Str}
    (h : getProcesses o ds [] = (.ok procs, m)) (hr : ∀ d ∈ ds, d.redist = false ∧ d.fast = false) :
    List.Forall₂ (Described o ds) procs m := by
  have h1 := (C51_mapping_partial o ds procs m h fun d hd e => by simp [(hr d hd).1] at e).1
  have : procs.filter (fun p => !p.fast) = procs := by
    rw [List.filter_eq_self]
    intro p hp
    obtain ⟨d, hd, e⟩ := process_fast h hp
    rw [e, (hr d hd).2]; rfl
  rwa [this] at h1

theorem countP_picked (ks : List (KStep ℝ)) (p : Nat) : ks.countP (fun k => decide (k.picked = p)) = (ks.map (·.picked)).count p := by
  rw [List.count, List.countP_map]
  congr 1

theorem reported_net (m : List Str) (occ : List Nat) (r : Str) :
    netEvents (reactionOccurrences m occ) (fun n : Nat => (n : ℝ)) r
      = (labelSum m occ (r ++ str! "(->)") : ℝ) - (labelSum m occ (r ++ str! "(<-)") : ℝ) := by
  have one : ∀ l, ((get? (reactionOccurrences m occ) l).map fun n : Nat => (n : ℝ)).getD 0 = (labelSum m occ l : ℝ) := by
    intro l
    rw [(C54_reactions m occ).1 l]
    split
    · rfl
    · next h => rw [labelSum_absent h]; simp
  unfold netEvents
  rw [one, one]

/-! ### C126 -/

/-- **C126** Whatever happened on the lattice, the change of every sum over the sites is the sum of the changes by the processes, each times the
number of its events that the analysis counted. Missing: a wildcard before or after only (`C126_wild_refuted`). -/
theorem C126_events_partial (place : C → Int → List (List S)) (procs : List (KProc ℝ C))
    (hp : ∀ p ∈ procs, ∀ a ∈ place p.coords p.basis, a.Nodup) (hw : ∀ p ∈ procs, WildSame p.before p.after)
    (tofStart : Int) (ks : List (KStep ℝ)) (c c' : S → Str) (h : History place procs c (ks.map (·.picked)) c') :
    ∃ s, FreqState.run tofStart (FreqState.init procs.length) ks = .ok s ∧ s.occ.length = procs.length ∧ ∀ φ : Str → ℝ,
      (∑ x, φ (c' x)) - ∑ x, φ (c x) = ((s.occ.zip procs).map fun y => (y.1 : ℝ) * change φ y.2.before y.2.after).sum := by
  have hk : ∀ k ∈ ks, k.picked < procs.length := fun k hk => h.lt _ (List.mem_map.mpr ⟨k, hk, rfl⟩)
  obtain ⟨s, h1, h2, h3, -⟩ := C54_counts procs.length tofStart ks hk
  refine ⟨s, h1, h2, fun φ => ?_⟩
  rw [history_sum hp hw φ h, zip_sum procs s.occ procs.length h2 rfl fun n p => (n : ℝ) * change φ p.before p.after]
  refine Finset.sum_congr rfl fun i _ => ?_
  have := (List.getElem?_eq_some_iff.mp (h3 i.1 i.2)).2
  rw [this, countP_picked]
  rfl

/-- **C126** So the reported numbers of events of the reactions account for the change of the lattice: the sum over the reactions of net number
of events times change by one event. Missing: redistribution and fast processes (`C126_fast_refuted`), wildcards as above, and definitions of one
reaction that change the lattice differently. -/
theorem C126_reactions_partial (o : KmcOwner ℝ) (place : C → Int → List (List S)) (ds : List (ProcDict C)) (procs : List (KProc ℝ C)) (m : List Str)
    (hm : getProcesses o ds [] = (.ok procs, m)) (hd : ∀ d ∈ ds, (d.redist = false ∧ d.fast = false) ∧ WildSame d.before d.after)
    (hp : ∀ p ∈ procs, ∀ a ∈ place p.coords p.basis, a.Nodup) (rs : List Str) (hn : rs.Nodup) (hrs : ∀ d ∈ ds, d.reaction ∈ rs)
    (φ D : Str → ℝ) (hD : ∀ d ∈ ds, change φ d.before d.after = D d.reaction)
    (tofStart : Int) (ks : List (KStep ℝ)) (c c' : S → Str) (h : History place procs c (ks.map (·.picked)) c') :
    ∃ s, FreqState.run tofStart (FreqState.init procs.length) ks = .ok s ∧
      (∑ x, φ (c' x)) - ∑ x, φ (c x) = (rs.map fun r => D r * netEvents (reactionOccurrences m s.occ) (fun n : Nat => (n : ℝ)) r).sum := by
  have hf := all_slow hm fun d hd' => (hd d hd').1
  have hw := procs_wild hf fun d hd' => (hd d hd').2
  obtain ⟨s, h1, h2, h3⟩ := C126_events_partial place procs hp hw tofStart ks c c' h
  refine ⟨s, h1, ?_⟩
  rw [h3 φ, zip_sum procs s.occ procs.length h2 rfl fun n p => (n : ℝ) * change φ p.before p.after]
  simp only [reported_net]
  exact by_label hf φ D hD rs hn hrs s.occ h2

/-- **C126** The reported rates of the reactions account for the mean rate of change: the sum over the reactions of net rate times change by one
event is the change of the lattice from the first counted step on, for each site and unit of time. Missing: as above, and runs without time
between the first counted and the last step. -/
theorem C126_rates_partial (o : KmcOwner ℝ) (place : C → Int → List (List S)) (ds : List (ProcDict C)) (procs : List (KProc ℝ C)) (m : List Str)
    (hm : getProcesses o ds [] = (.ok procs, m)) (hd : ∀ d ∈ ds, (d.redist = false ∧ d.fast = false) ∧ WildSame d.before d.after)
    (hp : ∀ p ∈ procs, ∀ a ∈ place p.coords p.basis, a.Nodup) (rs : List Str) (hn : rs.Nodup) (hrs : ∀ d ∈ ds, d.reaction ∈ rs)
    (φ D : Str → ℝ) (hD : ∀ d ∈ ds, change φ d.before d.after = D d.reaction)
    (tofStart : Int) (ks : List (KStep ℝ)) (k0 k1 : KStep ℝ) (ks' : List (KStep ℝ)) (c c1 c' : S → Str)
    (h0 : ∀ k ∈ ks, k.step < tofStart) (hs : ∀ k ∈ k0 :: ks', tofStart ≤ k.step ∧ k.time ≠ 0) (hlast : (k0 :: ks').getLast? = some k1)
    (h : History place procs c (ks.map (·.picked)) c1) (h' : History place procs c1 ((k0 :: ks').map (·.picked)) c')
    (nsites : Int) (hns : nsites ≠ 0) (ht : k1.time ≠ k0.time) :
    ∃ s occ byReaction steady rates, FreqState.run tofStart (FreqState.init procs.length) (ks ++ k0 :: ks') = .ok s ∧
      s.finalize m nsites = .ok (occ, byReaction, steady, rates) ∧
      (rs.map fun r => D r * netEvents rates id r).sum = ((∑ x, φ (c' x)) - ∑ x, φ (c1 x)) / ((k1.time - k0.time) * nsites) := by
  have hf := all_slow hm fun d hd' => (hd d hd').1
  have hw := procs_wild hf fun d hd' => (hd d hd').2
  have hk : ∀ k ∈ ks ++ k0 :: ks', k.picked < procs.length := by
    intro k hk
    rcases List.mem_append.mp hk with hk | hk
    · exact h.lt _ (List.mem_map.mpr ⟨k, hk, rfl⟩)
    · exact h'.lt _ (List.mem_map.mpr ⟨k, hk, rfl⟩)
  obtain ⟨s, r1, -, -, -, r2, r3, -, r4, r5⟩ := C54_counts procs.length tofStart (ks ++ k0 :: ks') hk
  have hstop : s.stop = k1.time := r4 k1 (by rw [List.getLast?_append, hlast]; rfl)
  have hstart : s.start = k0.time := by
    refine r5 ?_ k0 ?_
    · intro k hk hst
      rcases List.mem_append.mp hk with hk | hk
      · have := h0 k hk; omega
      · exact (hs k hk).2
    · rw [List.find?_append]
      have : ks.find? (fun k => decide (tofStart ≤ k.step)) = none := by
        rw [List.find?_eq_none]
        intro k hk
        have := h0 k hk
        simpa using this
      rw [this]
      have := (hs k0 List.mem_cons_self).1
      simp [this]
  have hne : (s.stop - s.start) * (nsites : ℝ) ≠ 0 := by
    rw [hstop, hstart]
    exact mul_ne_zero (sub_ne_zero.mpr ht) (by exact_mod_cast hns)
  obtain ⟨rates, f1, f2⟩ := C54_rates_partial m nsites s hne
  refine ⟨s, _, _, _, rates, r1, f1, ?_⟩
  have one : ∀ l, ((get? rates l).map id).getD 0 = (labelSum m s.steady l : ℝ) / ((s.stop - s.start) * (nsites : ℝ)) := by
    intro l
    rw [f2 l]
    split
    · rfl
    · next h => rw [labelSum_absent h]; simp
  have : ∀ r, D r * netEvents rates id r = (D r * ((labelSum m s.steady (r ++ str! "(->)") : ℝ) - (labelSum m s.steady (r ++ str! "(<-)") : ℝ)))
      / ((s.stop - s.start) * (nsites : ℝ)) := by
    intro r
    unfold netEvents
    rw [one, one, ← sub_div, mul_div_assoc]
  simp only [this]
  rw [hstop, hstart] at *
  have e : (rs.map fun r => D r * ((labelSum m s.steady (r ++ str! "(->)") : ℝ) - (labelSum m s.steady (r ++ str! "(<-)") : ℝ))
      / ((k1.time - k0.time) * (nsites : ℝ))).sum
      = (rs.map fun r => D r * ((labelSum m s.steady (r ++ str! "(->)") : ℝ) - (labelSum m s.steady (r ++ str! "(<-)") : ℝ))).sum
        / ((k1.time - k0.time) * (nsites : ℝ)) := by
    simp only [div_eq_mul_inv]
    rw [List.sum_map_mul_right]
  rw [e, ← by_label hf φ D hD rs hn hrs s.steady r2, history_sum hp hw φ h']
  congr 1
  refine Finset.sum_congr rfl fun i _ => ?_
  have := (List.getElem?_eq_some_iff.mp (r3 i.1 i.2)).2
  rw [this, ← countP_picked, List.countP_append]
  have z : ks.countP (fun k => decide (tofStart ≤ k.step) && decide (k.picked = i.1)) = 0 := by
    rw [List.countP_eq_zero]
    intro k hk
    have := h0 k hk
    simp [this]
  rw [z, Nat.zero_add]
  have : (k0 :: ks').countP (fun k => decide (tofStart ≤ k.step) && decide (k.picked = i.1)) = (k0 :: ks').countP fun k => decide (k.picked = i.1) := by
    apply List.countP_congr
    intro k hk
    have := (hs k hk).1
    simp [this]
  rw [this]

/-- **C126** So over a long time the reported rates balance for each element type: its net production, summed over the reactions, is at most one in
the counted time. Missing: as above. -/
theorem C126_balance_partial (o : KmcOwner ℝ) (place : C → Int → List (List S)) (ds : List (ProcDict C)) (procs : List (KProc ℝ C)) (m : List Str)
    (hm : getProcesses o ds [] = (.ok procs, m)) (hd : ∀ d ∈ ds, (d.redist = false ∧ d.fast = false) ∧ WildSame d.before d.after)
    (hp : ∀ p ∈ procs, ∀ a ∈ place p.coords p.basis, a.Nodup) (rs : List Str) (hn : rs.Nodup) (hrs : ∀ d ∈ ds, d.reaction ∈ rs)
    (t : Str) (ν : Str → Int) (hν : ∀ d ∈ ds, (d.after.count t : Int) - d.before.count t = ν d.reaction)
    (tofStart : Int) (ks : List (KStep ℝ)) (k0 k1 : KStep ℝ) (ks' : List (KStep ℝ)) (c c1 c' : S → Str)
    (h0 : ∀ k ∈ ks, k.step < tofStart) (hs : ∀ k ∈ k0 :: ks', tofStart ≤ k.step ∧ k.time ≠ 0) (hlast : (k0 :: ks').getLast? = some k1)
    (h : History place procs c (ks.map (·.picked)) c1) (h' : History place procs c1 ((k0 :: ks').map (·.picked)) c')
    (hS : 0 < Fintype.card S) (ht : k0.time < k1.time) :
    ∃ s occ byReaction steady rates, FreqState.run tofStart (FreqState.init procs.length) (ks ++ k0 :: ks') = .ok s ∧
      s.finalize m (Fintype.card S) = .ok (occ, byReaction, steady, rates) ∧
      |(rs.map fun r => (ν r : ℝ) * netEvents rates id r).sum| ≤ 1 / (k1.time - k0.time) := by
  obtain ⟨s, occ, b, st, rates, r1, r2, r3⟩ := C126_rates_partial o place ds procs m hm hd hp rs hn hrs (fun x => if x = t then 1 else 0)
    (fun r => (ν r : ℝ)) (by
      intro d hd'
      unfold change
      rw [typesEnergy_count, typesEnergy_count]
      have := hν d hd'
      rw [← this]; push_cast; rfl) tofStart ks k0 k1 ks' c c1 c' h0 hs hlast h h' (Fintype.card S) (by omega) ht.ne'
  refine ⟨s, occ, b, st, rates, r1, r2, ?_⟩
  rw [r3]
  have hN : (0 : ℝ) < Fintype.card S := by exact_mod_cast hS
  have hT : 0 < k1.time - k0.time := by linarith
  have bound : ∀ c : S → Str, 0 ≤ (∑ x, if c x = t then (1 : ℝ) else 0) ∧ (∑ x, if c x = t then (1 : ℝ) else 0) ≤ Fintype.card S := by
    intro c
    constructor
    · exact Finset.sum_nonneg fun x _ => by split <;> norm_num
    · calc _ ≤ ∑ _x : S, (1 : ℝ) := Finset.sum_le_sum fun x _ => by split <;> norm_num
        _ = _ := by simp
  have b1 := bound c1
  have b2 := bound c'
  rw [abs_div, abs_of_pos (a := (k1.time - k0.time) * _) (by push_cast; positivity), div_le_div_iff₀ (by push_cast; positivity) hT]
  have : |(∑ x, if c' x = t then (1 : ℝ) else 0) - ∑ x, if c1 x = t then (1 : ℝ) else 0| ≤ Fintype.card S := by
    rw [abs_le]; constructor <;> linarith
  push_cast
  nlinarith

/-! ### the mean -/

theorem moves_unique {b e : List Str} {a : List S} {c c' c'' : S → Str} (h : Moves b e a c c') (h' : Moves b e a c c'') : c' = c'' := by
  funext s
  by_cases hs : s ∈ a
  · obtain ⟨j, hj, rfl⟩ := List.getElem_of_mem hs
    have hb : j < b.length := by rw [h.lenBefore]; exact hj
    have he : j < e.length := by rw [h.lenAfter]; exact hj
    have e1 := (h.at_ j b[j] e[j] a[j] (List.getElem?_eq_getElem hb) (List.getElem?_eq_getElem he) (List.getElem?_eq_getElem hj)).2
    have e2 := (h'.at_ j b[j] e[j] a[j] (List.getElem?_eq_getElem hb) (List.getElem?_eq_getElem he) (List.getElem?_eq_getElem hj)).2
    rw [e1, e2]
  · rw [h.rest s hs, h'.rest s hs]

theorem moves_types {types : List Str} {b e : List Str} (he : ∀ x ∈ e, x = ['*'] ∨ x ∈ types) {a : List S} {c : Config S types} {c' : S → Str}
    (h : Moves b e a (fun s => (c s).1) c') (s : S) : c' s ∈ types := by
  by_cases hs : s ∈ a
  · obtain ⟨j, hj, rfl⟩ := List.getElem_of_mem hs
    have hb : j < b.length := by rw [h.lenBefore]; exact hj
    have he' : j < e.length := by rw [h.lenAfter]; exact hj
    have e1 := (h.at_ j b[j] e[j] a[j] (List.getElem?_eq_getElem hb) (List.getElem?_eq_getElem he') (List.getElem?_eq_getElem hj)).2
    rw [e1]
    split
    · exact (c _).2
    · next hne => exact (he _ (List.getElem_mem he')).resolve_left hne
  · rw [h.rest s hs]; exact (c s).2

theorem sum_targets [DecidableEq S] {types : List Str} {b e : List Str} (he : ∀ x ∈ e, x = ['*'] ∨ x ∈ types) (hw : WildSame b e) {a : List S} (ha : a.Nodup)
    (c : Config S types) (r : ℝ) (φ : Str → ℝ) :
    ∑ c' : Config S types, (if Moves b e a (fun s => (c s).1) (fun s => (c' s).1) then r else 0) * ((∑ s, φ (c' s).1) - ∑ s, φ (c s).1)
      = (if ∃ c' : S → Str, Moves b e a (fun s => (c s).1) c' then r else 0) * change φ b e := by
  by_cases h : ∃ c' : S → Str, Moves b e a (fun s => (c s).1) c'
  · obtain ⟨c', hm⟩ := h
    rw [if_pos ⟨c', hm⟩]
    let c0 : Config S types := fun s => ⟨c' s, moves_types he hm s⟩
    rw [Finset.sum_eq_single c0]
    · rw [if_pos (show Moves b e a (fun s => (c s).1) (fun s => (c0 s).1) from hm)]
      rw [show (∑ s, φ (c0 s).1) - ∑ s, φ (c s).1 = change φ b e from moves_energy φ ha hw hm]
    · intro c'' _ hne
      rw [if_neg, zero_mul]
      intro hm'
      apply hne
      funext s
      apply Subtype.ext
      exact congrFun (moves_unique hm' hm) s
    · intro h; exact absurd (Finset.mem_univ _) h
  · rw [if_neg h, zero_mul]
    refine Finset.sum_eq_zero fun c' _ => ?_
    rw [if_neg (fun hm => h ⟨_, hm⟩), zero_mul]

theorem mean_change [DecidableEq S] {types : List Str} {place : C → Int → List (List S)} {procs : List (KProc ℝ C)}
    (hp : ∀ p ∈ procs, ∀ a ∈ place p.coords p.basis, a.Nodup) (hw : ∀ p ∈ procs, WildSame p.before p.after)
    (ht : ∀ p ∈ procs, ∀ x ∈ p.after, x = ['*'] ∨ x ∈ types) (φ : Str → ℝ) (q : Config S types → ℝ) :
    ∑ c, Flow.gainLoss (configRate place procs types) q c * ∑ s, φ (c s).1
      = (procs.map fun p => change φ p.before p.after * eventRate place p types q).sum := by
  have e1 : ∑ c, Flow.gainLoss (configRate place procs types) q c * ∑ s, φ (c s).1
      = ∑ c : Config S types, q c * ∑ c' : Config S types, configRate place procs types c c' * ((∑ s, φ (c' s).1) - ∑ s, φ (c s).1) := by
    generalize configRate place procs types = J
    generalize hN : (fun c : Config S types => ∑ s, φ (c s).1) = N
    have hN' : ∀ c : Config S types, ∑ s, φ (c s).1 = N c := fun c => congrFun hN c
    simp only [hN']
    unfold Flow.gainLoss
    have l : ∑ c, (∑ j, (q j * J j c - q c * J c j)) * N c = ∑ c, ∑ j, q j * J j c * N c - ∑ c, ∑ j, q c * J c j * N c := by
      simp only [Finset.sum_mul, sub_mul, Finset.sum_sub_distrib]
    have r : ∑ c, q c * ∑ c', J c c' * (N c' - N c) = ∑ c, ∑ c', q c * J c c' * N c' - ∑ c, ∑ j, q c * J c j * N c := by
      rw [← Finset.sum_sub_distrib]
      refine Finset.sum_congr rfl fun c _ => ?_
      rw [← Finset.sum_sub_distrib, Finset.mul_sum]
      refine Finset.sum_congr rfl fun c' _ => ?_
      ring
    rw [l, r, Finset.sum_comm]
  rw [e1]
  clear e1
  induction procs with
  | nil => simp [configRate, jumpRate]
  | cons p procs ih =>
    rw [List.map_cons, List.sum_cons, ← ih (fun x hx => hp x (List.mem_cons_of_mem _ hx)) (fun x hx => hw x (List.mem_cons_of_mem _ hx))
      (fun x hx => ht x (List.mem_cons_of_mem _ hx))]
    unfold eventRate
    rw [Finset.mul_sum, ← Finset.sum_add_distrib]
    refine Finset.sum_congr rfl fun c _ => ?_
    have e : ∀ c', configRate place (p :: procs) types c c' = ((place p.coords p.basis).map fun a =>
        if Moves p.before p.after a (fun s => (c s).1) (fun s => (c' s).1) then p.rate else 0).sum + configRate place procs types c c' := by
      intro c'
      unfold configRate jumpRate
      rw [List.map_cons, List.sum_cons]
    simp only [e, add_mul, Finset.sum_add_distrib, mul_add]
    congr 1
    have key : ∑ c' : Config S types, ((place p.coords p.basis).map fun a =>
        if Moves p.before p.after a (fun s => (c s).1) (fun s => (c' s).1) then p.rate else 0).sum * ((∑ s, φ (c' s).1) - ∑ s, φ (c s).1)
        = ((place p.coords p.basis).map fun a => if ∃ c' : S → Str, Moves p.before p.after a (fun s => (c s).1) c' then p.rate else 0).sum
          * change φ p.before p.after := by
      have hn := hp p List.mem_cons_self
      generalize place p.coords p.basis = as at hn
      induction as with
      | nil => simp
      | cons a as ih =>
        simp only [List.map_cons, List.sum_cons, add_mul, Finset.sum_add_distrib]
        rw [ih fun x hx => hn x (List.mem_cons_of_mem _ hx),
          sum_targets (ht p List.mem_cons_self) (hw p List.mem_cons_self) (hn a List.mem_cons_self)]
    rw [key]
    ring

/-- **C126** In the mean over the runs, every sum over the sites changes at each time by the sum over the processes of mean number of events in
unit time times change by one event; so coverages follow a rate equation with the exact mean rates. Missing: wildcards as above. -/
theorem C126_mean_partial [DecidableEq S] (o : KmcOwner ℝ) (place : C → Int → List (List S)) (ds : List (ProcDict C)) (procs : List (KProc ℝ C)) (m0 m : List Str)
    (hm : getProcesses o ds m0 = (.ok procs, m)) (hd : ∀ d ∈ ds, WildSame d.before d.after)
    (hp : ∀ p ∈ procs, ∀ a ∈ place p.coords p.basis, a.Nodup) (φ : Str → ℝ) (p : ℝ → Config S o.elementTypes → ℝ)
    (hM : Master place procs o.elementTypes p) (t : ℝ) (ht : 0 < t) :
    HasDerivAt (fun τ => ∑ c, p τ c * ∑ s, φ (c s).1)
      (procs.map fun x => change φ x.before x.after * eventRate place x o.elementTypes (p t)).sum t := by
  have hall := (C51_accepted o ds m0).mp (by rw [hm]; rfl)
  have hw : ∀ x ∈ procs, WildSame x.before x.after := by
    intro x hx
    obtain ⟨d, hd', _, _, _, h⟩ := process_from hm hx
    rcases h with ⟨-, e1, e2⟩ | ⟨-, e1, e2⟩ <;> rw [e1, e2]
    · exact hd d hd'
    · exact (hd d hd').symm
  have hty : ∀ x ∈ procs, ∀ y ∈ x.after, y = ['*'] ∨ y ∈ o.elementTypes := by
    intro x hx y hy
    obtain ⟨d, hd', _, _, _, h⟩ := process_from hm hx
    rcases h with ⟨-, e1, e2⟩ | ⟨-, e1, e2⟩ <;> rw [e2] at hy
    · exact (hall d hd').2.2.1 y (Or.inr hy)
    · exact (hall d hd').2.2.1 y (Or.inl hy)
  rw [← mean_change hp hw hty φ (p t)]
  exact HasDerivAt.fun_sum fun c _ => (hM.deriv t ht c).mul_const _

/-- **C126** In every stationary distribution the mean rates of the processes balance: the changes by the processes cancel, for every sum over the
sites. Missing: wildcards as above. -/
theorem C126_stationary_partial [DecidableEq S] (o : KmcOwner ℝ) (place : C → Int → List (List S)) (ds : List (ProcDict C)) (procs : List (KProc ℝ C)) (m0 m : List Str)
    (hm : getProcesses o ds m0 = (.ok procs, m)) (hd : ∀ d ∈ ds, WildSame d.before d.after)
    (hp : ∀ p ∈ procs, ∀ a ∈ place p.coords p.basis, a.Nodup) (φ : Str → ℝ) (q : Config S o.elementTypes → ℝ)
    (hq : ∀ c, ∑ c', q c' * configRate place procs o.elementTypes c' c = ∑ c', q c * configRate place procs o.elementTypes c c') :
    (procs.map fun x => change φ x.before x.after * eventRate place x o.elementTypes q).sum = 0 := by
  have hM : Master place procs o.elementTypes fun _ => q := by
    refine ⟨fun c => continuousOn_const, fun t _ c => ?_⟩
    rw [Finset.sum_sub_distrib, hq c, sub_self]
    exact hasDerivAt_const t (q c)
  exact (C126_mean_partial o place ds procs m0 m hm hd hp φ _ hM 1 one_pos).unique (hasDerivAt_const 1 _)

/-- Records of turnover that account for the lattice: the lattice before the first window, the lattices at the ends of the windows, and for every window
the sum over the processes of turnover times change by one event is the change of the lattice per site and time. -/
inductive Accounts (procs : List (KProc ℝ C)) (nsites : Int) (φ : Str → ℝ) : (S → Str) → ℝ → List (ℝ × List ℝ) → (S → Str) → ℝ → Prop
  | nil (c) (t : ℝ) : Accounts procs nsites φ c t [] c t
  | window {c c' c'' : S → Str} {t t' t'' : ℝ} {tof : List ℝ} {recs : List (ℝ × List ℝ)} : t < t' → tof.length = procs.length →
      ((tof.zip procs).map fun y => y.1 * change φ y.2.before y.2.after).sum = ((∑ x, φ (c' x)) - ∑ x, φ (c x)) / ((t' - t) * nsites) →
      Accounts procs nsites φ c' t' recs c'' t'' → Accounts procs nsites φ c t ((t, tof) :: recs) c'' t''

/-- The time of the last of these steps, or the beginning. -/
def windowsEnd (start : ℝ) (ks : List (KStep ℝ)) : ℝ := (ks.getLast?.map (·.time)).getD start

/-- The recorded turnover of a quantity of the lattice, window by window, times the length of the window; the last window ends at `stop`. -/
noncomputable def weighted (procs : List (KProc ℝ C)) (φ : Str → ℝ) (recs : List (ℝ × List ℝ)) (stop : ℝ) : List ℝ :=
  List.zipWith (fun (r : ℝ × List ℝ) (e : ℝ) => (e - r.1) * ((r.2.zip procs).map fun y => y.1 * change φ y.2.before y.2.after).sum) recs ((recs.map (·.1)).tail ++ [stop])

theorem accounts_le {procs : List (KProc ℝ C)} {nsites : Int} {φ : Str → ℝ} {c c1 : S → Str} {t t1 : ℝ} {recs : List (ℝ × List ℝ)}
    (h : Accounts procs nsites φ c t recs c1 t1) : t ≤ t1 := by
  induction h with
  | nil => exact le_rfl
  | window h1 _ _ _ ih => linarith

theorem accounts_before {procs : List (KProc ℝ C)} {nsites : Int} {φ : Str → ℝ} {c c1 : S → Str} {t t1 : ℝ} {recs : List (ℝ × List ℝ)}
    (h : Accounts procs nsites φ c t recs c1 t1) : ∀ r ∈ recs, r.1 < t1 := by
  induction h with
  | nil => simp
  | window h1 _ _ h4 ih =>
    intro r hr
    rcases List.mem_cons.mp hr with rfl | hr
    · exact lt_of_lt_of_le h1 (accounts_le h4)
    · exact ih r hr

theorem History.split {place : C → Int → List (List S)} {procs : List (KProc ℝ C)} : ∀ {is js : List Nat} {c c' : S → Str},
    History place procs c (is ++ js) c' → ∃ c1, History place procs c is c1 ∧ History place procs c1 js c'
  | [], _, c, _, h => ⟨c, .nil c, h⟩
  | _ :: _, _, _, _, h => by
    cases h with
    | step h1 h2 h3 h4 =>
      obtain ⟨c1, k1, k2⟩ := History.split h4
      exact ⟨c1, .step h1 h2 h3 k1, k2⟩

theorem zip_sum_real {α : Type} (m : List α) (occ : List ℝ) (n : Nat) (h1 : occ.length = n) (h2 : m.length = n) (g : ℝ → α → ℝ) :
    ((occ.zip m).map fun p => g p.1 p.2).sum = ∑ i : Fin n, g (occ[i.1]'(by omega)) (m[i.1]'(by omega)) := by
  rw [← List.sum_ofFn]
  congr 1
  apply List.ext_getElem (by simp [h1, h2])
  intro i hi hi'
  simp

theorem windowed_accounts {place : C → Int → List (List S)} {procs : List (KProc ℝ C)} (hp : ∀ p ∈ procs, ∀ a ∈ place p.coords p.basis, a.Nodup)
    (hw : ∀ p ∈ procs, WildSame p.before p.after) (φ : Str → ℝ) {nsites : Int} (hn : nsites ≠ 0) {interval : ℝ} (hi : 0 ≤ interval) {start : ℝ} {ks : List (KStep ℝ)}
    {recs : List (ℝ × List ℝ)} (h : Windowed procs.length nsites interval start ks recs) : ∀ {c c' : S → Str}, History place procs c (ks.map (·.picked)) c' →
    ∃ c1 front rest, ks = front ++ rest ∧ Accounts procs nsites φ c start recs c1 (windowsEnd start front) ∧ History place procs c1 (rest.map (·.picked)) c' ∧
      ∀ k ∈ rest, k.time - windowsEnd start front ≤ interval := by
  induction h with
  | @rest start ks h => exact fun {c c'} hh => ⟨c, [], ks, rfl, .nil c start, hh, h⟩
  | @window start w last tof ks recs h1 h2 h3 h4 h5 ih =>
    intro c c' hh
    rw [show w ++ last :: ks = (w ++ [last]) ++ ks by simp, List.map_append] at hh
    obtain ⟨c1, k1, k2⟩ := hh.split
    obtain ⟨c2, front, rest, r1, r2, r3, r4⟩ := ih k2
    have he : windowsEnd start (w ++ last :: front) = windowsEnd last.time front := by
      unfold windowsEnd
      rw [List.getLast?_append, List.getLast?_cons]
      cases front.getLast? <;> rfl
    refine ⟨c2, w ++ last :: front, rest, by rw [r1]; simp, ?_, r3, by rw [he]; exact r4⟩
    rw [he]
    refine .window (by linarith) h3 ?_ r2
    have hd : (0 : ℝ) < last.time - start := by linarith
    have hns : (nsites : ℝ) ≠ 0 := by exact_mod_cast hn
    rw [history_sum hp hw φ k1, zip_sum_real procs tof procs.length h3 rfl fun x p => x * change φ p.before p.after, Finset.sum_div]
    refine Finset.sum_congr rfl fun i _ => ?_
    have := h4 i.1 tof[i.1] (List.getElem?_eq_getElem (by omega))
    rw [countP_picked] at this
    rw [eq_div_iff (mul_ne_zero hd.ne' hns), ← this]
    show tof[i.1] * change φ procs[i.1].before procs[i.1].after * _ = _ * change φ procs[i.1].before procs[i.1].after
    ring

/-- **C126** The windows of turnover frequencies account for the lattice: window by window, the sum over the processes of the recorded turnover times what
one event does to the lattice is the change of the lattice during the window per site and time; the steps after the last window, which the file leaves out,
are all within one interval of its end. Missing: the labels, for which see `C126_reactions_partial`; wildcards that come from other types. -/
theorem C126_windows_partial (place : C → Int → List (List S)) (procs : List (KProc ℝ C))
    (hp : ∀ p ∈ procs, ∀ a ∈ place p.coords p.basis, a.Nodup) (hw : ∀ p ∈ procs, WildSame p.before p.after)
    (nsites : Int) (hn : nsites ≠ 0) (interval : ℝ) (hi : 0 ≤ interval) (ks : List (KStep ℝ)) (c c' : S → Str)
    (h : History place procs c (ks.map (·.picked)) c') :
    ∃ s recs, TofState.run procs.length nsites interval (TofState.init procs.length) ks = .ok (s, recs) ∧ ∀ φ : Str → ℝ,
      ∃ c1 front rest, ks = front ++ rest ∧ Accounts procs nsites φ c 0 recs c1 (windowsEnd 0 front) ∧ History place procs c1 (rest.map (·.picked)) c' ∧
        ∀ k ∈ rest, k.time - windowsEnd 0 front ≤ interval := by
  have hk : ∀ k ∈ ks, k.picked < procs.length := fun k hk => h.lt _ (List.mem_map.mpr ⟨k, hk, rfl⟩)
  obtain ⟨s, recs, r1, r2⟩ := C55_windows_partial procs.length nsites interval hn hi ks hk
  exact ⟨s, recs, r1, fun φ => windowed_accounts hp hw φ hn hi r2 h⟩

theorem accounts_sum {procs : List (KProc ℝ C)} {nsites : Int} {φ : Str → ℝ} {c c1 : S → Str} {t t1 : ℝ} {recs : List (ℝ × List ℝ)}
    (h : Accounts procs nsites φ c t recs c1 t1) (hn : nsites ≠ 0) :
    t ≤ t1 ∧ (weighted procs φ recs t1).sum = ((∑ x, φ (c1 x)) - ∑ x, φ (c x)) / nsites := by
  have hns : (nsites : ℝ) ≠ 0 := by exact_mod_cast hn
  induction h with
  | nil c t => simp [weighted]
  | @window c c' c'' t t' t'' tof recs h1 h2 h3 h4 ih =>
    obtain ⟨i1, i2⟩ := ih
    refine ⟨by linarith, ?_⟩
    have e : t' - t ≠ 0 := by linarith
    have key : (weighted procs φ ((t, tof) :: recs) t'').sum = (t' - t) * ((tof.zip procs).map fun y => y.1 * change φ y.2.before y.2.after).sum
        + (weighted procs φ recs t'').sum := by
      cases h4 with
      | nil => simp [weighted]
      | window => simp [weighted]
    rw [key, i2, h3]
    field_simp
    ring

/-- **C126** So a surface species is not made or used up in the mean: over the recorded windows together, the recorded turnover of a type of site element, each window
weighted with its length, adds up to at most one per site, however long the run. -/
theorem C126_average_partial (place : C → Int → List (List S)) (procs : List (KProc ℝ C))
    (hp : ∀ p ∈ procs, ∀ a ∈ place p.coords p.basis, a.Nodup) (hw : ∀ p ∈ procs, WildSame p.before p.after)
    (hS : 0 < Fintype.card S) (interval : ℝ) (hi : 0 ≤ interval) (ks : List (KStep ℝ)) (c c' : S → Str)
    (h : History place procs c (ks.map (·.picked)) c') (ty : Str) :
    ∃ s recs, TofState.run procs.length (Fintype.card S) interval (TofState.init procs.length) ks = .ok (s, recs) ∧
      ∃ front rest, ks = front ++ rest ∧ (∀ k ∈ rest, k.time - windowsEnd 0 front ≤ interval) ∧ (∀ r ∈ recs, r.1 < windowsEnd 0 front) ∧
        |(weighted procs (fun y => if y = ty then 1 else 0) recs (windowsEnd 0 front)).sum| ≤ 1 := by
  have hn : (Fintype.card S : Int) ≠ 0 := by exact_mod_cast hS.ne'
  obtain ⟨s, recs, r1, r2⟩ := C126_windows_partial place procs hp hw (Fintype.card S) hn interval hi ks c c' h
  obtain ⟨c1, front, rest, a1, a2, -, a4⟩ := r2 fun y => if y = ty then 1 else 0
  obtain ⟨-, b2⟩ := accounts_sum a2 hn
  refine ⟨s, recs, r1, front, rest, a1, a4, accounts_before a2, ?_⟩
  rw [b2, abs_div]
  have hc : (0 : ℝ) < Fintype.card S := by exact_mod_cast hS
  have hcc : (((Fintype.card S : Nat) : Int) : ℝ) = (Fintype.card S : ℝ) := by norm_cast
  rw [hcc, abs_of_pos hc, div_le_one hc]
  have bnd : ∀ d : S → Str, 0 ≤ (∑ x, if d x = ty then (1 : ℝ) else 0) ∧ (∑ x, if d x = ty then (1 : ℝ) else 0) ≤ Fintype.card S := by
    intro d
    refine ⟨Finset.sum_nonneg fun x _ => by split <;> norm_num, ?_⟩
    calc (∑ x, if d x = ty then (1 : ℝ) else 0) ≤ ∑ _x : S, (1 : ℝ) := Finset.sum_le_sum fun x _ => by split <;> norm_num
      _ = Fintype.card S := by simp
  have := bnd c1
  have := bnd c
  rw [abs_le]
  constructor <;> linarith

/-! ### examples -/

theorem wild_plain {b e : List Str} (h : b.length = e.length) (hb : ['*'] ∉ b) (he : ['*'] ∉ e) : WildSame b e :=
  ⟨h, fun _ _ _ hx hy => iff_of_false (fun e' => hb (e' ▸ List.mem_of_getElem? hx)) fun e' => he (e' ▸ List.mem_of_getElem? hy)⟩

def exRunStart : Fin 3 → Str := fun _ => str! "V"
def exRunA : Fin 3 → Str := Function.update exRunStart 0 (str! "C")
def exRunB : Fin 3 → Str := Function.update exRunA 1 (str! "O")

theorem moves_one [DecidableEq S] {b e : Str} (he : e ≠ ['*']) {s : S} {c : S → Str} (h : c s = b) :
    Moves [b] [e] [s] c (Function.update c s e) := by
  refine ⟨rfl, rfl, ?_, ?_⟩
  · rintro (_ | j) x y z h1 h2 h3
    · cases h1; cases h2; cases h3
      exact ⟨Or.inr h, by simp [he]⟩
    · exact nomatch h1
  · intro z hz
    exact Function.update_of_ne (by simpa using hz) _ _

theorem moves_two [DecidableEq S] {b e b' e' : Str} (he : e ≠ ['*']) (he' : e' ≠ ['*']) {s s' : S} (hs : s ≠ s') {c : S → Str} (h : c s = b) (h' : c s' = b') :
    Moves [b, b'] [e, e'] [s, s'] c (Function.update (Function.update c s e) s' e') := by
  refine ⟨rfl, rfl, ?_, ?_⟩
  · rintro (_ | _ | j) x y z h1 h2 h3
    · cases h1; cases h2; cases h3
      exact ⟨Or.inr h, by simp [he, hs]⟩
    · cases h1; cases h2; cases h3
      exact ⟨Or.inr h', by simp [he']⟩
    · exact nomatch h1
  · intro z hz
    simp only [List.mem_cons, List.not_mem_nil, or_false, not_or] at hz
    rw [Function.update_of_ne hz.2, Function.update_of_ne hz.1]

def exRunSteps : List (KStep ℝ) := [⟨1, 1, 0⟩, ⟨2, 2, 2⟩, ⟨3, 3, 4⟩]

theorem exRun_history : ∃ procs m, getProcesses exRunOwner exRunDicts [] = (.ok procs, m) ∧
    (∀ p ∈ procs, ∀ a ∈ exLatPlace p.coords p.basis, a.Nodup) ∧
    History exLatPlace procs exRunStart (exRunSteps.map (·.picked)) exRunStart := by
  refine ⟨_, _, rfl, ?_, ?_⟩
  · intro p _ a ha
    unfold exLatPlace at ha
    split at ha <;> revert a <;> decide
  · refine .step (c' := exRunA) (a := [0]) rfl (by decide) (moves_one (by decide) rfl) ?_
    refine .step (c' := exRunB) (a := [1]) rfl (by decide) (moves_one (by decide) rfl) ?_
    refine .step (c' := exRunStart) (a := [0, 1]) rfl (by decide) ?_ (.nil _)
    have : exRunStart = Function.update (Function.update exRunB 0 (str! "V")) 1 (str! "V") := by
      funext i; fin_cases i <;> rfl
    rw [this]
    exact moves_two (by decide) (by decide) (by decide) rfl rfl

theorem exRun_plain : ∀ d ∈ exRunDicts, (d.redist = false ∧ d.fast = false) ∧ WildSame d.before d.after := by
  intro d hd
  simp only [exRunDicts, List.mem_cons, List.not_mem_nil, or_false] at hd
  rcases hd with rfl | rfl | rfl <;> exact ⟨⟨rfl, rfl⟩, wild_plain rfl (by decide) (by decide)⟩

/-- Carbon monoxide and oxygen adsorb and react away; the lattice is as before, and the reported events of the three reactions, with the changes of
the number of empty sites by each, cancel. -/
example : ∃ procs m s, getProcesses exRunOwner exRunDicts [] = (.ok procs, m) ∧
    FreqState.run 2 (FreqState.init procs.length) exRunSteps = .ok s ∧ ∀ D : Str → ℝ,
      D (str! "CO_g + *_s -> CO_s") = -1 → D (str! "O_g + *_s -> O_s") = -1 → D (str! "CO_s + O_s -> CO2_g + 2*_s") = 2 →
      ((exRunDicts.map (·.reaction)).map fun r => D r * netEvents (reactionOccurrences m s.occ) (fun n : Nat => (n : ℝ)) r).sum = 0 := by
  obtain ⟨procs, m, hm, hp, hh⟩ := exRun_history
  obtain ⟨s, h1, -, -⟩ := C126_events_partial exLatPlace procs hp (procs_wild (all_slow hm fun d hd => (exRun_plain d hd).1) fun d hd => (exRun_plain d hd).2)
    2 exRunSteps _ _ hh
  refine ⟨procs, m, s, hm, h1, ?_⟩
  intro D d1 d2 d3
  obtain ⟨s', h1', h2⟩ := C126_reactions_partial exRunOwner exLatPlace exRunDicts procs m hm exRun_plain hp (exRunDicts.map (·.reaction)) (by decide)
    (fun d hd => List.mem_map.mpr ⟨d, hd, rfl⟩) (fun x => if x = str! "V" then 1 else 0) D (by
      intro d hd
      unfold change
      rw [typesEnergy_count, typesEnergy_count]
      simp only [exRunDicts, List.mem_cons, List.not_mem_nil, or_false] at hd
      rcases hd with rfl | rfl | rfl
      · rw [d1]; norm_num [List.count_cons]
      · rw [d2]; norm_num [List.count_cons]
      · rw [d3]; norm_num [List.count_cons]) 2 exRunSteps _ _ hh
  cases h1.symm.trans h1'
  rw [← h2, sub_self]

/-- From the second step on: oxygen adsorbs and the reaction happens. The reported rates balance up to one in the counted time. -/
example : ∃ procs m s occ byReaction steady rates, getProcesses exRunOwner exRunDicts [] = (.ok procs, m) ∧
    FreqState.run 2 (FreqState.init procs.length) exRunSteps = .ok s ∧ s.finalize m 3 = .ok (occ, byReaction, steady, rates) ∧
    |((exRunDicts.map (·.reaction)).map fun r => ((if r = str! "CO_s + O_s -> CO2_g + 2*_s" then 2 else -1 : Int) : ℝ) * netEvents rates id r).sum| ≤ 1 := by
  obtain ⟨procs, m, hm, hp, hh⟩ := exRun_history
  cases hh with
  | @step _ c1 _ _ _ p a e1 e2 e3 e4 =>
    obtain ⟨s, occ, b, st, rates, r1, r2, r3⟩ := C126_balance_partial exRunOwner exLatPlace exRunDicts procs m hm exRun_plain hp (exRunDicts.map (·.reaction))
      (by decide) (fun d hd => List.mem_map.mpr ⟨d, hd, rfl⟩) (str! "V") (fun r => if r = str! "CO_s + O_s -> CO2_g + 2*_s" then 2 else -1) (by decide)
      2 [⟨1, 1, 0⟩] ⟨2, 2, 2⟩ ⟨3, 3, 4⟩ [⟨3, 3, 4⟩] exRunStart c1 exRunStart (by simp) (by simp) rfl (.step e1 e2 e3 (.nil _)) e4 (by simp) (by norm_num)
    refine ⟨procs, m, s, occ, b, st, rates, hm, r1, by simpa using r2, ?_⟩
    have e : (3 : ℝ) - 2 = 1 := by norm_num
    simpa [e] using r3

/-- The stationary distribution of the reacting lattice: net adsorption of carbon monoxide is the rate of the reaction, in the mean. -/
example : ∃ procs m, getProcesses exRunOwner exRunDicts [] = (.ok procs, m) ∧ ∀ q : Config (Fin 3) exRunOwner.elementTypes → ℝ,
    (∀ c, ∑ c', q c' * configRate exLatPlace procs exRunOwner.elementTypes c' c = ∑ c', q c * configRate exLatPlace procs exRunOwner.elementTypes c c') →
    (procs.map fun x => change (fun y => if y = str! "C" then 1 else 0) x.before x.after * eventRate exLatPlace x exRunOwner.elementTypes q).sum = 0 := by
  obtain ⟨procs, m, hm, hp, -⟩ := exRun_history
  exact ⟨procs, m, hm, fun q hq => C126_stationary_partial exRunOwner exLatPlace exRunDicts procs [] m hm (fun d hd => (exRun_plain d hd).2) hp _ q hq⟩

/-! ### where the numbers do not account for the change -/

noncomputable def exCountOwner : KmcOwner ℝ := ⟨[str! "CO_g + *_s -> CO_s", str! "CO_s + *_t -> *_s + CO_t"], [str! "V", str! "C"], fun _ => .ok (2, 3)⟩

/-- A process with a wildcard before only: two runs with the same numbers of events change the lattice differently. -/
theorem C126_wild_refuted : ∃ (procs : List (KProc ℝ Nat)) (m : List Str) (c c' d d' : Fin 3 → Str),
    getProcesses exCountOwner [⟨str! "CO_g + *_s -> CO_s", [0], [['*']], [str! "C"], false, [0], false, false⟩] [] = (.ok procs, m) ∧
    History exLatPlace procs c [0] c' ∧ History exLatPlace procs d [0] d' ∧
    typeNumber (str! "C") c' - typeNumber (str! "C") c = 1 ∧ typeNumber (str! "C") d' - typeNumber (str! "C") d = 0 := by
  refine ⟨_, _, fun _ => str! "V", Function.update (fun _ => str! "V") 0 (str! "C"), fun _ => str! "C", fun _ => str! "C", rfl, ?_, ?_, ?_, ?_⟩
  · refine .step (a := [0]) rfl (by decide) ⟨rfl, rfl, ?_, ?_⟩ (.nil _)
    · rintro (_ | j) x y z h1 h2 h3
      · cases h1; cases h2; cases h3
        exact ⟨Or.inl rfl, rfl⟩
      · exact nomatch h1
    · intro z hz
      exact Function.update_of_ne (by simpa using hz) _ _
  · refine .step (a := [0]) rfl (by decide) ⟨rfl, rfl, ?_, fun _ _ => rfl⟩ (.nil _)
    rintro (_ | j) x y z h1 h2 h3
    · cases h1; cases h2; cases h3
      exact ⟨Or.inl rfl, rfl⟩
    · exact nomatch h1
  · simp [typeNumber, Function.update]
  · simp

/-- With a fast process before it, an adsorption is reported for a hop: the reported events would add one to the number of adsorbates, which did
not change. -/
theorem C126_fast_refuted : ∃ (procs : List (KProc ℝ Nat)) (m : List Str) (s : FreqState ℝ) (c c' : Fin 3 → Str),
    getProcesses exCountOwner [⟨str! "CO_s + *_t -> *_s + CO_t", [1], [str! "C", str! "V"], [str! "V", str! "C"], false, [0], true, false⟩,
      ⟨str! "CO_g + *_s -> CO_s", [0], [str! "V"], [str! "C"], false, [0], false, false⟩] [] = (.ok procs, m) ∧
    History exLatPlace procs c [0] c' ∧ FreqState.run 0 (FreqState.init procs.length) [⟨1, 1, 0⟩] = .ok s ∧
    typeNumber (str! "C") c' - typeNumber (str! "C") c = 0 ∧
    netEvents (reactionOccurrences m s.occ) (fun n : Nat => (n : ℝ)) (str! "CO_g + *_s -> CO_s") = 1 := by
  refine ⟨_, _, ⟨[1, 0, 0, 0], [1, 0, 0, 0], 1, 1⟩, Function.update (fun _ => str! "V") 0 (str! "C"), _, rfl,
    .step (a := [0, 1]) rfl (by decide) (moves_two (by decide) (by decide) (by decide) rfl rfl) (.nil _), ?_, ?_, ?_⟩
  · show FreqState.run 0 (FreqState.init 4) _ = _
    simp [FreqState.run, FreqState.register, FreqState.init, bumpAt, bind, Except.bind, pure, Except.pure, List.replicate]
  · unfold typeNumber
    rw [Fin.sum_univ_three, Fin.sum_univ_three]
    simp [Function.update]
  · rw [reported_net]
    have h1 : labelSum [str! "CO_g + *_s -> CO_s(->)", str! "CO_g + *_s -> CO_s(<-)"] [1, 0, 0, 0] (str! "CO_g + *_s -> CO_s" ++ str! "(->)") = 1 := by decide
    have h2 : labelSum [str! "CO_g + *_s -> CO_s(->)", str! "CO_g + *_s -> CO_s(<-)"] [1, 0, 0, 0] (str! "CO_g + *_s -> CO_s" ++ str! "(<-)") = 0 := by decide
    erw [h1, h2]
    norm_num

/-- Windows of one time unit and a half: the run has one window, which ends at its second event. -/
example : ∃ procs m s recs, getProcesses exRunOwner exRunDicts [] = (.ok procs, m) ∧
    TofState.run procs.length 3 (3 / 2) (TofState.init procs.length) exRunSteps = .ok (s, recs) ∧ ∀ φ : Str → ℝ,
      ∃ c1 front rest, exRunSteps = front ++ rest ∧ Accounts procs 3 φ exRunStart 0 recs c1 (windowsEnd 0 front) ∧
        History exLatPlace procs c1 (rest.map (·.picked)) exRunStart ∧ ∀ k ∈ rest, k.time - windowsEnd 0 front ≤ 3 / 2 := by
  obtain ⟨procs, m, hm, hp, hh⟩ := exRun_history
  obtain ⟨s, recs, h1, h2⟩ := C126_windows_partial exLatPlace procs hp (procs_wild (all_slow hm fun d hd => (exRun_plain d hd).1) fun d hd => (exRun_plain d hd).2)
    3 (by decide) (3 / 2) (by norm_num) exRunSteps _ _ hh
  exact ⟨procs, m, s, recs, hm, h1, h2⟩

example : ∃ procs m s recs front rest, getProcesses exRunOwner exRunDicts [] = (.ok procs, m) ∧
    TofState.run procs.length (Fintype.card (Fin 3)) (3 / 2) (TofState.init procs.length) exRunSteps = .ok (s, recs) ∧ exRunSteps = front ++ rest ∧
    |(weighted procs (fun y => if y = str! "C" then 1 else 0) recs (windowsEnd 0 front)).sum| ≤ 1 := by
  obtain ⟨procs, m, hm, hp, hh⟩ := exRun_history
  obtain ⟨s, recs, h1, front, rest, h2, -, -, h3⟩ := C126_average_partial exLatPlace procs hp
    (procs_wild (all_slow hm fun d hd => (exRun_plain d hd).1) fun d hd => (exRun_plain d hd).2) (by simp) (3 / 2) (by norm_num) exRunSteps _ _ hh (str! "C")
  exact ⟨procs, m, s, recs, front, rest, hm, h1, h2, h3⟩

end Verif
