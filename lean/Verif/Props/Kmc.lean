import Verif.Model.Kmc
import Verif.Lemmas.Kmc
import Mathlib.Tactic.NormNum
/-
C51-C56: lattice processes and on-the-fly analysis.
-/
namespace Verif
open Dict

set_option linter.unusedSectionVars false

variable {K : Type} {C : Type}

/-! ## C51 -/

/-- A label that describes a process of one of the definitions: forward with the forward rate
constant, or backward with exchanged elements and the reverse rate constant. -/
def Described (o : KmcOwner K) (ds : List (ProcDict C)) (p : KProc K C) (label : Str) : Prop :=
  ∃ d ∈ ds, ∃ rf rr, o.rates d.reaction = .ok (rf, rr) ∧ p.basis ∈ d.basis ∧ p.coords ∈ d.coords ∧
    ((label = d.reaction ++ str! "(->)" ∧ p.before = d.before ∧ p.after = d.after ∧ p.rate = rf) ∨
     (label = d.reaction ++ str! "(<-)" ∧ p.before = d.after ∧ p.after = d.before ∧ p.rate = rr))

theorem processRates_ok {o : KmcOwner K} {d : ProcDict C} {r : K × K} (h : processRates o d = .ok r) :
    o.rates d.reaction = .ok r := by
  unfold processRates at h
  rw [guard_ok, guard_ok, guard_ok] at h
  exact h.2.2.2

/-- What one definition gives. -/
theorem single_spec {o : KmcOwner K} {d : ProcDict C} {m m' : List Str} {ps : List (KProc K C)}
    (h : getSingleProcess o d m = (.ok ps, m')) : ∃ rf rr, o.rates d.reaction = .ok (rf, rr) ∧
      ps = (d.basis.flatMap fun b => d.coords.map fun c => processPair d rf rr b c).flatMap (·.1) ∧
      m' = m ++ (d.basis.flatMap fun b => d.coords.map fun c => processPair d rf rr b c).flatMap (·.2) := by
  unfold getSingleProcess at h
  cases hr : processRates o d with
  | error e => rw [hr] at h; exact nomatch h
  | ok r =>
    obtain ⟨rf, rr⟩ := r
    rw [hr] at h
    dsimp only at h
    have h1 := congrArg Prod.fst h
    have h2 := congrArg Prod.snd h
    exact ⟨rf, rr, processRates_ok hr, (Except.ok.inj h1).symm, h2.symm⟩

theorem processes_cons {o : KmcOwner K} {d : ProcDict C} {ds : List (ProcDict C)} {m m' : List Str} {ps : List (KProc K C)}
    (h : getProcesses o (d :: ds) m = (.ok ps, m')) : ∃ qs qs' m1, getSingleProcess o d m = (.ok qs, m1) ∧
      getProcesses o ds m1 = (.ok qs', m') ∧ ps = qs ++ qs' := by
  unfold getProcesses at h
  split at h
  · exact nomatch h
  · rename_i qs m1 h1
    split at h
    · exact nomatch h
    · rename_i qs' m2 h2
      have e1 := Except.ok.inj (congrArg Prod.fst h)
      have e2 : m2 = m' := congrArg Prod.snd h
      subst e2
      exact ⟨qs, qs', m1, h1, h2, e1.symm⟩

/-- Slow processes and labels correspond one to one, in order, when redistribution processes are
marked as fast; every definition gives its forward and, unless it is a redistribution, its reverse
process at every basis site and coordinate. Missing: redistribution processes not marked as fast
(`C51_redist_refuted`), lists that count fast processes (`C51_fast_refuted`) and repeated calls
(`C51_twice_refuted`). -/
theorem C51_mapping_partial (o : KmcOwner K) (ds : List (ProcDict C)) (procs : List (KProc K C)) (m : List Str)
    (h : getProcesses o ds [] = (.ok procs, m)) (hr : ∀ d ∈ ds, d.redist = true → d.fast = true) :
    List.Forall₂ (Described o ds) (procs.filter fun p => !p.fast) m ∧
    ∀ d ∈ ds, ∃ rf rr, o.rates d.reaction = .ok (rf, rr) ∧ ∀ b ∈ d.basis, ∀ c ∈ d.coords,
      ⟨c, d.before, d.after, b, rf, d.fast, d.redist⟩ ∈ procs ∧
      (d.redist = false → ⟨c, d.after, d.before, b, rr, d.fast, false⟩ ∈ procs) := by
  have gen : ∀ (es : List (ProcDict C)) (m0 m : List Str) (procs : List (KProc K C)), (∀ d ∈ es, d ∈ ds) →
      getProcesses o es m0 = (.ok procs, m) →
      ∃ m1, m = m0 ++ m1 ∧ List.Forall₂ (Described o ds) (procs.filter fun p => !p.fast) m1 ∧
      ∀ d ∈ es, ∃ rf rr, o.rates d.reaction = .ok (rf, rr) ∧ ∀ b ∈ d.basis, ∀ c ∈ d.coords,
        ⟨c, d.before, d.after, b, rf, d.fast, d.redist⟩ ∈ procs ∧
        (d.redist = false → ⟨c, d.after, d.before, b, rr, d.fast, false⟩ ∈ procs) := by
    intro es
    induction es with
    | nil =>
      intro m0 m procs _ h
      have h1 : [] = procs := Except.ok.inj (congrArg Prod.fst h)
      have h2 : m0 = m := congrArg Prod.snd h
      subst h1; subst h2
      exact ⟨[], by simp, by simp, by simp⟩
    | cons d es ih =>
      intro m0 m procs hsub h
      obtain ⟨qs, qs', m1, h1, h2, rfl⟩ := processes_cons h
      obtain ⟨rf, rr, hrate, hq, rfl⟩ := single_spec h1
      obtain ⟨m2, rfl, h3, h4⟩ := ih _ _ _ (fun x hx => hsub x (by simp [hx])) h2
      have hd := hsub d (by simp)
      refine ⟨_, List.append_assoc _ _ _, ?_, ?_⟩
      · rw [List.filter_append]
        refine List.rel_append ?_ h3
        rw [hq, List.filter_flatMap]
        apply forall2_flatMap
        intro x hx
        obtain ⟨b, hb, hx⟩ := List.mem_flatMap.mp hx
        obtain ⟨c, hc, rfl⟩ := List.mem_map.mp hx
        unfold processPair
        cases hf : d.fast with
        | true => cases d.redist <;> simp
        | false =>
          have hnr : d.redist = false := by
            cases e : d.redist with
            | false => rfl
            | true => rw [hr d hd e] at hf; exact nomatch hf
          simp only [hnr, Bool.false_eq_true, if_false, Bool.not_false, List.filter_cons_of_pos, List.filter_nil,
            List.singleton_append]
          refine .cons ⟨d, hd, rf, rr, hrate, hb, hc, Or.inl ⟨rfl, rfl, rfl, rfl⟩⟩
            (.cons ⟨d, hd, rf, rr, hrate, hb, hc, Or.inr ⟨rfl, rfl, rfl, rfl⟩⟩ .nil)
      · intro e he
        rcases List.mem_cons.mp he with rfl | he
        · refine ⟨rf, rr, hrate, fun b hb c hc => ?_⟩
          have hp : processPair e rf rr b c ∈ e.basis.flatMap fun b => e.coords.map fun c => processPair e rf rr b c :=
            List.mem_flatMap.mpr ⟨b, hb, List.mem_map.mpr ⟨c, hc, rfl⟩⟩
          constructor
          · refine List.mem_append_left _ ?_
            rw [hq]
            exact List.mem_flatMap.mpr ⟨_, hp, by unfold processPair; simp⟩
          · intro hnr
            refine List.mem_append_left _ ?_
            rw [hq]
            exact List.mem_flatMap.mpr ⟨_, hp, by unfold processPair; simp [hnr]⟩
        · obtain ⟨rf', rr', e1, e2⟩ := h4 e he
          exact ⟨rf', rr', e1, fun b hb c hc =>
            ⟨List.mem_append_right _ (e2 b hb c hc).1, fun hnr => List.mem_append_right _ ((e2 b hb c hc).2 hnr)⟩⟩
  obtain ⟨m1, hm, h1, h2⟩ := gen ds [] m procs (fun _ h => h) h
  rw [List.nil_append] at hm
  subst hm
  exact ⟨h1, h2⟩

/-- Without redistribution processes, forward and reverse processes alternate, with exchanged
elements at the same place, two for each basis site and coordinate. -/
theorem C51_pairs (o : KmcOwner K) (ds : List (ProcDict C)) (procs : List (KProc K C)) (m : List Str)
    (h : getProcesses o ds [] = (.ok procs, m)) (hr : ∀ d ∈ ds, d.redist = false) :
    procs.length = (ds.map fun d => d.basis.length * d.coords.length * 2).sum ∧
    ∀ (k : Nat) (p : KProc K C), procs[2 * k]? = some p → ∃ q, procs[2 * k + 1]? = some q ∧ q.coords = p.coords ∧ q.basis = p.basis ∧
      q.before = p.after ∧ q.after = p.before := by
  -- lists made of matching pairs
  let Paired : List (KProc K C) → Prop := fun l => ∃ pairs : List (KProc K C × KProc K C),
    l = pairs.flatMap (fun x => [x.1, x.2]) ∧ ∀ x ∈ pairs, x.2.coords = x.1.coords ∧ x.2.basis = x.1.basis ∧
      x.2.before = x.1.after ∧ x.2.after = x.1.before
  have gen : ∀ (es : List (ProcDict C)) (m0 m : List Str) (procs : List (KProc K C)), (∀ d ∈ es, d.redist = false) →
      getProcesses o es m0 = (.ok procs, m) →
      procs.length = (es.map fun d => d.basis.length * d.coords.length * 2).sum ∧ Paired procs := by
    intro es
    induction es with
    | nil =>
      intro m0 m procs _ h
      have h1 : [] = procs := Except.ok.inj (congrArg Prod.fst h)
      subst h1
      exact ⟨rfl, [], rfl, by simp⟩
    | cons d es ih =>
      intro m0 m procs hsub h
      obtain ⟨qs, qs', m1, h1, h2, rfl⟩ := processes_cons h
      obtain ⟨rf, rr, hrate, hq, rfl⟩ := single_spec h1
      obtain ⟨h3, pairs, h4, h5⟩ := ih _ _ _ (fun x hx => hsub x (by simp [hx])) h2
      have hd := hsub d (by simp)
      have hq' : qs = (d.basis.flatMap fun b => d.coords.map fun c =>
          ((⟨c, d.before, d.after, b, rf, d.fast, d.redist⟩ : KProc K C),
           (⟨c, d.after, d.before, b, rr, d.fast, false⟩ : KProc K C))).flatMap (fun x => [x.1, x.2]) := by
        rw [hq]
        simp only [List.flatMap_assoc, List.flatMap_map, processPair, hd, Bool.false_eq_true, if_false]
      refine ⟨?_, _, by rw [hq', h4, ← List.flatMap_append], ?_⟩
      · rw [List.length_append, h3, List.map_cons, List.sum_cons, hq']
        congr 1
        simp [List.length_flatMap, Nat.mul_assoc]
      · intro x hx
        rcases List.mem_append.mp hx with hx | hx
        · obtain ⟨b, _, hx⟩ := List.mem_flatMap.mp hx
          obtain ⟨c, _, rfl⟩ := List.mem_map.mp hx
          exact ⟨rfl, rfl, rfl, rfl⟩
        · exact h5 x hx
  obtain ⟨h1, pairs, h2, h3⟩ := gen ds [] m procs hr h
  refine ⟨h1, ?_⟩
  subst h2
  have two : ∀ (pairs : List (KProc K C × KProc K C)) (k : Nat),
      (pairs.flatMap (fun x => [x.1, x.2]))[2 * k]? = pairs[k]?.map (·.1) ∧
      (pairs.flatMap (fun x => [x.1, x.2]))[2 * k + 1]? = pairs[k]?.map (·.2) := by
    intro pairs
    induction pairs with
    | nil => intro k; simp
    | cons x pairs ih =>
      intro k
      cases k with
      | zero => simp
      | succ k =>
        have := ih k
        rw [List.flatMap_cons, show 2 * (k + 1) = 2 * k + 1 + 1 from by ring]
        simpa using this
  intro k p hp
  rw [(two pairs k).1] at hp
  rw [(two pairs k).2]
  cases hx : pairs[k]? with
  | none => rw [hx] at hp; exact nomatch hp
  | some x =>
    rw [hx] at hp
    have : x.1 = p := by simpa using hp
    subst this
    exact ⟨x.2, rfl, h3 x (List.mem_of_getElem? hx)⟩

/-- Adsorption at two sites of the cell. -/
def exKmc : KmcOwner ℚ := ⟨[str! "CO_g + *_s -> CO_s", str! "CO_s + *_t -> *_s + CO_t"], [str! "V", str! "C"], fun _ => .ok (2, 3)⟩
def exKmcAds (fast redist : Bool) : ProcDict Nat :=
  ⟨str! "CO_g + *_s -> CO_s", [7], [str! "V"], [str! "C"], false, [0, 1], fast, redist⟩
def exHop (fast redist : Bool) : ProcDict Nat :=
  ⟨str! "CO_s + *_t -> *_s + CO_t", [8], [str! "C", str! "V"], [str! "V", str! "C"], false, [0], fast, redist⟩

example : ∃ procs m, getProcesses exKmc [exKmcAds false false, exHop true true] [] = (.ok procs, m) ∧
    procs.length = 5 ∧ m.length = 4 ∧ ∀ d ∈ [exKmcAds false false, exHop true true], d.redist = true → d.fast = true :=
  ⟨_, _, rfl, rfl, rfl, by decide⟩

/-- **C51** The definitions are taken exactly if each names a known reaction, has its elements before and after written as
lists of the same kind, uses only known element types and the wildcard, and its rates can be computed. -/
theorem C51_accepted (o : KmcOwner K) (ds : List (ProcDict C)) (m : List Str) : (getProcesses o ds m).1.isOk ↔
    ∀ d ∈ ds, d.reaction ∈ o.exprs ∧ d.mixed = false ∧
      (∀ e, e ∈ d.before ∨ e ∈ d.after → e = ['*'] ∨ e ∈ o.elementTypes) ∧ (o.rates d.reaction).isOk := by
  have one : ∀ d : ProcDict C, (processRates o d).isOk ↔ d.reaction ∈ o.exprs ∧ d.mixed = false ∧
      (∀ e, e ∈ d.before ∨ e ∈ d.after → e = ['*'] ∨ e ∈ o.elementTypes) ∧ (o.rates d.reaction).isOk := by
    intro d
    unfold processRates
    by_cases h1 : d.reaction ∈ o.exprs
    · simp only [h1, not_true_eq_false, if_false, true_and]
      cases h2 : d.mixed with
      | true => simp [Except.isOk, Except.toBool]
      | false =>
        simp only [Bool.false_eq_true, if_false, true_and]
        have key : ((d.before ++ d.after).any (fun e => e != ['*'] && !o.elementTypes.contains e) = true) ↔
            ¬ ∀ e, e ∈ d.before ∨ e ∈ d.after → e = ['*'] ∨ e ∈ o.elementTypes := by
          simp only [List.any_eq_true, List.mem_append, Bool.and_eq_true, bne_iff_ne, Bool.not_eq_true', ← Bool.not_eq_true,
            List.contains_iff_mem]
          push Not
          rfl
        split
        · rename_i h3
          simp [key.mp h3, Except.isOk, Except.toBool]
        · rename_i h3
          rw [key, not_not] at h3
          exact ⟨fun h => ⟨h3, h⟩, fun h => h.2⟩
    · simp [h1, Except.isOk, Except.toBool]
  induction ds generalizing m with
  | nil => simp [getProcesses, Except.isOk, Except.toBool]
  | cons d ds ih =>
    rw [List.forall_mem_cons, ← one d]
    unfold getProcesses getSingleProcess
    cases h : processRates o d with
    | error e => simp [Except.isOk, Except.toBool]
    | ok r =>
      dsimp only
      have := ih (m ++ (d.basis.flatMap fun b => d.coords.map fun c => processPair d r.1 r.2 b c).flatMap (·.2))
      generalize hx : getProcesses o ds (m ++ (d.basis.flatMap fun b => d.coords.map fun c => processPair d r.1 r.2 b c).flatMap (·.2)) = x at this ⊢
      refine Iff.trans ?_ (and_congr_right fun _ => this)
      obtain ⟨x1, x2⟩ := x
      cases x1 <;> simp [Except.isOk, Except.toBool]

/-- The wildcard is taken, an unknown element type is not. -/
example : (getProcesses exKmc [⟨str! "CO_g + *_s -> CO_s", [7], [str! "V", str! "*"], [str! "C", str! "*"], false, [0], false, false⟩] []).1.isOk ∧
    ¬ (getProcesses exKmc [⟨str! "CO_g + *_s -> CO_s", [7], [str! "V", str! "O"], [str! "C", str! "O"], false, [0], false, false⟩] []).1.isOk := by
  constructor
  · rfl
  · exact fun h => (nomatch h)

/-- A redistribution process that is not marked as fast shifts the labels: the second process, an
adsorption, has the label of the reverse hop. -/
theorem C51_redist_refuted : ∃ procs m p, getProcesses exKmc [exHop false true, exKmcAds false false] [] = (.ok procs, m) ∧
    procs[1]? = some p ∧ p.before = [str! "V"] ∧ p.after = [str! "C"] ∧
    m[1]? = some (str! "CO_s + *_t -> *_s + CO_t(<-)") ∧ m.length = procs.length + 1 :=
  ⟨_, _, _, rfl, rfl, rfl, rfl, rfl, rfl⟩

/-- With fast processes the labels do not belong to the positions in the process list. -/
theorem C51_fast_refuted : ∃ procs m p, getProcesses exKmc [exHop true false, exKmcAds false false] [] = (.ok procs, m) ∧
    procs[0]? = some p ∧ p.before = [str! "C", str! "V"] ∧ m[0]? = some (str! "CO_g + *_s -> CO_s(->)") ∧
    m.length < procs.length :=
  ⟨_, _, _, rfl, rfl, rfl, rfl, by decide⟩

/-- Asking for the processes a second time repeats all labels. -/
theorem C51_twice_refuted (o : KmcOwner K) (ds : List (ProcDict C)) (procs : List (KProc K C)) (m : List Str)
    (h : getProcesses o ds [] = (.ok procs, m)) : getProcesses o ds m = (.ok procs, m ++ m) := by
  have gen : ∀ (es : List (ProcDict C)) (m0 m : List Str) (procs : List (KProc K C)),
      getProcesses o es m0 = (.ok procs, m) → ∃ m1, m = m0 ++ m1 ∧ ∀ m2, getProcesses o es m2 = (.ok procs, m2 ++ m1) := by
    intro es
    induction es with
    | nil =>
      intro m0 m procs h
      have h1 : [] = procs := Except.ok.inj (congrArg Prod.fst h)
      have h2 : m0 = m := congrArg Prod.snd h
      subst h1; subst h2
      exact ⟨[], by simp, fun m2 => by simp [getProcesses]⟩
    | cons d es ih =>
      intro m0 m procs h
      obtain ⟨qs, qs', m1, h1, h2, rfl⟩ := processes_cons h
      obtain ⟨m2, rfl, h3⟩ := ih _ _ _ h2
      have key : ∃ mm, m1 = m0 ++ mm ∧ ∀ x, getSingleProcess o d x = (.ok qs, x ++ mm) := by
        unfold getSingleProcess at h1 ⊢
        cases hr : processRates o d with
        | error e => rw [hr] at h1; exact nomatch h1
        | ok r =>
          obtain ⟨rf, rr⟩ := r
          rw [hr] at h1
          dsimp only at h1 ⊢
          have e1 := congrArg Prod.fst h1
          have e2 := congrArg Prod.snd h1
          exact ⟨_, e2.symm, fun x => Prod.ext e1 rfl⟩
      obtain ⟨mm, rfl, hs⟩ := key
      refine ⟨mm ++ m2, by rw [List.append_assoc], fun x => ?_⟩
      rw [getProcesses, hs x]
      dsimp only
      rw [h3 (x ++ mm)]
      dsimp only
      rw [List.append_assoc]
  obtain ⟨m1, h1, h2⟩ := gen ds [] m procs h
  rw [List.nil_append] at h1
  subst h1
  exact h2 m

/-! ## C52 -/

section Cov
variable [Field K] [LinearOrder K] [IsStrictOrderedRing K]

/-- The weight of a species in the cells of a lattice. -/
def cellWeight (ratios : List K) (cells : List (List Str)) (s : Str) : K :=
  (cells.map fun c => ((ratios.zip c).map fun p => if p.2 = s then p.1 else 0).sum).sum

omit [LinearOrder K] [IsStrictOrderedRing K] in
/-- Whatever the lattice, the recorded coverages are as many as the possible types and add up to one. -/
theorem C52_sum (possible : List Str) (empty : Str) (ratios : List K) (types : List Str) (l : List K)
    (h : recordCoverages possible empty ratios types = .ok l) : l.length = possible.length ∧ l.sum = 1 := by
  unfold recordCoverages at h
  split at h
  · exact nomatch h
  · rename_i i hi
    obtain ⟨cv, h1, h2⟩ := bind_ok.mp h
    have hl : cv.length = (possible.eraseIdx i).length := by
      unfold collectCoverages at h1
      rw [guard_ok] at h1
      dsimp only at h1
      rw [guard_ok] at h1
      rw [← Except.ok.inj h1.2.2, List.length_map, collectLoop_length, List.length_replicate]
    have hlt := indexOf?_lt hi
    rw [List.length_eraseIdx, if_pos hlt] at hl
    have : l = cv.insertIdx i (1 - cv.sum) := (pure_ok.mp h2).symm
    subst this
    constructor
    · rw [List.length_insertIdx, if_pos (by omega)]; omega
    · rw [(List.perm_insertIdx (1 - cv.sum) cv (by omega)).sum_eq, List.sum_cons]; ring

/-- On a lattice of whole cells with distinct possible types, the coverage of every species is its
weight per cell, in the order of the possible types; with weights that are not negative and add to
at most one, all coverages are between zero and one. Missing: repeated types and incomplete cells
(`C52_repeated_refuted`, `C52_incomplete_refuted`). -/
theorem C52_coverages_partial (possible : List Str) (empty : Str) (ratios : List K) (cells : List (List Str))
    (hp : possible.Nodup) (he : empty ∈ possible) (hr : ratios ≠ []) (hc : cells ≠ [])
    (hl : ∀ c ∈ cells, c.length = ratios.length) :
    ∃ l, recordCoverages possible empty ratios cells.flatten = .ok l ∧ l.length = possible.length ∧ l.sum = 1 ∧
      (∀ (i : Nat) (s : Str), possible[i]? = some s → s ≠ empty →
        l[i]? = some (cellWeight ratios cells s / (cells.length : K))) ∧
      ((∀ r ∈ ratios, 0 ≤ r) → ratios.sum ≤ 1 → ∀ x ∈ l, 0 ≤ x ∧ x ≤ 1) := by
  cases hi : indexOf? possible empty with
  | none => exact absurd he (indexOf?_none.mp hi)
  | some i =>
    have hlt := indexOf?_lt hi
    have hie := indexOf?_some hi
    let other := possible.eraseIdx i
    have hother : other.Nodup := hp.sublist (List.eraseIdx_sublist _ _)
    let zs : List (K × Str) := cells.flatMap fun c => ratios.zip c
    let nt := collectLoop other zs (List.replicate other.length 0)
    let cv := nt.map (· / (cells.length : K))
    have hrec : recordCoverages possible empty ratios cells.flatten = .ok (cv.insertIdx i (1 - cv.sum)) := by
      unfold recordCoverages
      rw [hi]
      dsimp only
      rw [collectCoverages_cells hr hc hl]
      rfl
    obtain ⟨h1, h2⟩ := C52_sum _ _ _ _ _ hrec
    have hcvl : cv.length = possible.length - 1 := by
      simp only [cv, nt, List.length_map, collectLoop_length, List.length_replicate, other]
      rw [List.length_eraseIdx, if_pos hlt]
    have hn0 : (0 : K) < (cells.length : K) := by
      have : cells.length ≠ 0 := fun h => hc (List.length_eq_zero_iff.mp h)
      exact_mod_cast Nat.pos_of_ne_zero this
    -- weights of the remaining types
    have hw : ∀ (j : Nat) (s : Str), other[j]? = some s → cv[j]? = some (cellWeight ratios cells s / (cells.length : K)) := by
      intro j s hs
      have hj : j < other.length := by
        rcases Nat.lt_or_ge j other.length with h | h
        · exact h
        · rw [List.getElem?_eq_none h] at hs; exact nomatch hs
      have : idxWeight other zs j = cellWeight ratios cells s := by
        unfold idxWeight cellWeight
        simp only [zs, List.map_flatMap]
        rw [sum_flatMap']
        congr 1
        apply List.map_congr_left
        intro c _
        congr 1
        apply List.map_congr_left
        intro p _
        have : (indexOf? other p.2 = some j) ↔ p.2 = s := by
          rw [indexOf?_nodup hother, hs]
          exact ⟨fun h => (Option.some.inj h).symm, fun h => by rw [h]⟩
        by_cases e : p.2 = s
        · rw [if_pos (this.mpr e), if_pos e]
        · rw [if_neg (fun h => e (this.mp h)), if_neg e]
      simp only [cv, nt, List.getElem?_map, collectLoop_getElem?]
      rw [this]
      simp [hj]
    refine ⟨_, hrec, h1, h2, ?_, ?_⟩
    · intro k s hk hse
      have hki : k ≠ i := by
        rintro rfl
        rw [hie] at hk; exact hse (Option.some.inj hk).symm
      rw [List.getElem?_insertIdx]
      rcases Nat.lt_or_ge k i with hlt' | hge
      · rw [if_pos hlt']
        apply hw
        rw [List.getElem?_eraseIdx, if_pos hlt', hk]
      · rw [if_neg (by omega), if_neg hki]
        apply hw
        rw [List.getElem?_eraseIdx, if_neg (by omega), Nat.sub_add_cancel (by omega), hk]
    · intro hpos hsum
      have hzpos : ∀ p ∈ zs, 0 ≤ p.1 := by
        intro p hpz
        obtain ⟨c, _, hpc⟩ := List.mem_flatMap.mp hpz
        exact hpos _ (List.of_mem_zip hpc).1
      have hnn : ∀ x ∈ cv, 0 ≤ x := by
        intro x hx
        obtain ⟨y, hy, rfl⟩ := List.mem_map.mp hx
        refine div_nonneg ?_ hn0.le
        obtain ⟨j, hj⟩ := List.mem_iff_getElem?.mp hy
        simp only [nt, collectLoop_getElem?] at hj
        cases hz : (List.replicate other.length (0 : K))[j]? with
        | none => rw [hz] at hj; exact nomatch hj
        | some z =>
          have : z = 0 := List.eq_of_mem_replicate (List.mem_of_getElem? hz)
          rw [hz, this] at hj
          have : 0 + idxWeight other zs j = y := by simpa using hj
          rw [← this, zero_add]
          apply List.sum_nonneg
          intro w hw
          obtain ⟨p, hpz, rfl⟩ := List.mem_map.mp hw
          split
          · exact hzpos p hpz
          · exact le_refl _
      have hle : cv.sum ≤ 1 := by
        have hs : cv.sum = nt.sum / (cells.length : K) := by
          simp only [cv, div_eq_mul_inv]
          rw [List.sum_map_mul_right, List.map_id']
        rw [hs, div_le_one hn0]
        simp only [nt]
        rw [collectLoop_sum other zs _ (by simp)]
        have hz : (List.replicate other.length (0 : K)).sum = 0 := by simp
        rw [hz, zero_add]
        calc (zs.map fun p => if p.2 ∈ other then p.1 else 0).sum ≤ (zs.map fun p => p.1).sum := by
              apply List.sum_le_sum
              intro p hpz
              split
              · exact le_refl _
              · exact hzpos p hpz
          _ = (cells.map fun _ => ratios.sum).sum := by
              simp only [zs, List.map_flatMap]
              rw [sum_flatMap']
              congr 1
              apply List.map_congr_left
              intro c hcc
              exact congrArg List.sum (List.map_fst_zip (l₁ := ratios) (l₂ := c) (by rw [hl c hcc]))
          _ ≤ (cells.map fun _ => (1 : K)).sum := List.sum_le_sum fun _ _ => hsum
          _ = cells.length := by simp
      have all : ∀ x ∈ cv.insertIdx i (1 - cv.sum), 0 ≤ x := by
        intro x hx
        rcases List.mem_cons.mp ((List.perm_insertIdx (1 - cv.sum) cv (by omega)).mem_iff.mp hx) with rfl | hx
        · linarith
        · exact hnn x hx
      intro x hx
      refine ⟨all x hx, ?_⟩
      rw [← h2]
      exact List.single_le_sum all x hx

end Cov

/-- A top and a bridge site in each of two cells. -/
def exCells : List (List Str) := [[str! "C", str! "V"], [str! "O", str! "C"]]

example : recordCoverages [str! "O", str! "V", str! "C"] (str! "V") [(1 / 2 : ℚ), 1 / 4] exCells.flatten
    = .ok [1 / 4, 3 / 8, 3 / 8] := by decide +kernel
example : ([str! "O", str! "V", str! "C"] : List Str).Nodup ∧ (∀ c ∈ exCells, c.length = [(1 / 2 : ℚ), 1 / 4].length) := by
  decide

/-- Of a type named twice, the second entry is always zero. -/
theorem C52_repeated_refuted :
    recordCoverages [str! "V", str! "C", str! "C"] (str! "V") [(1 : ℚ)] [str! "C", str! "V"] = .ok [1 / 2, 1 / 2, 0] := by
  decide +kernel

/-- Sites after the last whole cell are not counted: a site covered with C is lost. -/
theorem C52_incomplete_refuted :
    recordCoverages [str! "V", str! "C"] (str! "V") [(1 / 2 : ℚ), 1 / 2] [str! "V", str! "V", str! "C"] = .ok [1, 0] := by
  decide +kernel

/-- Without coverage ratios, the default, recording fails; so it does when the empty type is not
possible. -/
theorem C52_settings [Field K] (possible : List Str) (empty : Str) (types : List Str) :
    (empty ∈ possible → recordCoverages possible empty ([] : List K) types = .error .ZeroDivisionError) ∧
    ∀ ratios : List K, empty ∉ possible → recordCoverages possible empty ratios types = .error .ValueError := by
  constructor
  · intro h
    unfold recordCoverages
    cases hi : indexOf? possible empty with
    | none => exact absurd h (indexOf?_none.mp hi)
    | some i => rfl
  · intro ratios h
    unfold recordCoverages
    rw [indexOf?_none.mpr h]

/-! ## C53 -/

/-- Both versions agree on lattices of whole cells with distinct possible types. Missing: repeated
types, incomplete cells and lattices smaller than a cell, where they differ (`C53_refuted`). -/
theorem C53_agree_partial [Field K] (possible : List Str) (ratios : List K) (cells : List (List Str))
    (hp : possible.Nodup) (hr : ratios ≠ []) (hc : cells ≠ []) (hl : ∀ c ∈ cells, c.length = ratios.length) :
    ∃ l, collectCoverages cells.flatten possible ratios = .ok l ∧ cppCoverages cells.flatten possible ratios = some l := by
  refine ⟨_, collectCoverages_cells hr hc hl possible, ?_⟩
  have h0 : ratios.length ≠ 0 := fun h => hr (List.length_eq_zero_iff.mp h)
  have hn : cells.flatten.length / ratios.length = cells.length := by
    rw [cells_length hl, Nat.mul_div_cancel _ (Nat.pos_of_ne_zero h0)]
  have hc0 : cells.length ≠ 0 := fun h => hc (List.length_eq_zero_iff.mp h)
  unfold cppCoverages
  rw [if_neg h0]
  dsimp only
  have := cppLoop_cells (possible := possible) (ratios := ratios) hp cells 0 (List.replicate possible.length 0) hl (by simp)
  rw [Nat.zero_mul] at this
  rw [this, hn]
  dsimp only
  rw [if_neg (fun h => hc0 h.1)]

example : cppCoverages exCells.flatten [str! "O", str! "C"] [(1 / 2 : ℚ), 1 / 4] = some [1 / 4, 3 / 8] := by decide +kernel

/-- The versions differ for an incomplete cell, for a repeated type, and for a lattice smaller than
a cell. -/
theorem C53_refuted :
    (collectCoverages [str! "V", str! "V", str! "C"] [str! "C"] [(1 / 2 : ℚ), 1 / 2] = .ok [0] ∧
     cppCoverages [str! "V", str! "V", str! "C"] [str! "C"] [(1 / 2 : ℚ), 1 / 2] = some [1 / 2]) ∧
    (collectCoverages [str! "C"] [str! "C", str! "C"] [(1 : ℚ)] = .ok [1, 0] ∧
     cppCoverages [str! "C"] [str! "C", str! "C"] [(1 : ℚ)] = some [1, 1]) ∧
    (collectCoverages [str! "C"] [str! "C"] [(1 / 2 : ℚ), 1 / 2] = .error .ZeroDivisionError ∧
     cppCoverages [str! "C"] [str! "C"] [(1 / 2 : ℚ), 1 / 2] = none) := by
  decide +kernel

/-! ## C54 -/

/-- The steps that count for the steady state. -/
def counted (tofStart : Int) (ks : List (KStep K)) : List (KStep K) := ks.filter fun k => tofStart ≤ k.step

theorem freq_run [Zero K] [DecidableEq K] {n : Nat} {tofStart : Int} : ∀ (ks before : List (KStep K)) (s : FreqState K),
    (∀ k ∈ ks, k.picked < n) → Counts n before s.occ → Counts n (counted tofStart before) s.steady →
    ∃ s', FreqState.run tofStart s ks = .ok s' ∧ Counts n (before ++ ks) s'.occ ∧
      Counts n (counted tofStart (before ++ ks)) s'.steady ∧
      s'.stop = (match ks.getLast? with | none => s.stop | some k => k.time) ∧
      (s.start ≠ 0 → s'.start = s.start) ∧
      (s.start = 0 → (∀ k ∈ counted tofStart ks, k.time ≠ 0) →
        s'.start = match counted tofStart ks with | [] => 0 | k :: _ => k.time)
  | [], before, s, _, h1, h2 => ⟨s, rfl, by simpa using h1, by simpa using h2, rfl, fun _ => rfl, fun h _ => h⟩
  | k :: ks, before, s, hk, h1, h2 => by
    obtain ⟨b1, c1⟩ := counts_bump h1 k (hk k (by simp))
    have app : before ++ k :: ks = (before ++ [k]) ++ ks := by simp
    unfold FreqState.run FreqState.register
    rw [b1]
    by_cases hs : tofStart ≤ k.step
    · obtain ⟨b2, c2⟩ := counts_bump h2 k (hk k (by simp))
      have hc : counted tofStart (before ++ [k]) = counted tofStart before ++ [k] := by
        simp [counted, hs]
      have hck : counted tofStart (k :: ks) = k :: counted tofStart ks := by simp [counted, hs]
      obtain ⟨s', r1, r2, r3, r4, r5, r6⟩ := freq_run ks (before ++ [k])
        ⟨s.occ.modify k.picked (· + 1), s.steady.modify k.picked (· + 1), if s.start = 0 then k.time else s.start, k.time⟩
        (fun x hx => hk x (by simp [hx])) c1 (by rw [hc]; exact c2)
      refine ⟨s', ?_, by rw [app]; exact r2, by rw [app]; exact r3, ?_, ?_, ?_⟩
      · simp only [bind, Except.bind, if_pos hs, b2, pure, Except.pure]
        exact r1
      · rw [r4]
        cases ks with
        | nil => rfl
        | cons y ys => rw [List.getLast?_cons_cons]; simp [List.getLast?_cons]
      · intro h0
        rw [r5 (by simp [h0])]
        simp [h0]
      · intro h0 ht
        rw [hck] at ht ⊢
        have hkt := ht k (by simp)
        rw [r5 (by simpa [h0] using hkt)]
        simp [h0]
    · have hc : counted tofStart (before ++ [k]) = counted tofStart before := by simp [counted, hs]
      have hck : counted tofStart (k :: ks) = counted tofStart ks := by simp [counted, hs]
      obtain ⟨s', r1, r2, r3, r4, r5, r6⟩ := freq_run ks (before ++ [k])
        ⟨s.occ.modify k.picked (· + 1), s.steady, s.start, k.time⟩
        (fun x hx => hk x (by simp [hx])) c1 (by rw [hc]; exact h2)
      refine ⟨s', ?_, by rw [app]; exact r2, by rw [app]; exact r3, ?_, r5, ?_⟩
      · simp only [bind, Except.bind, if_neg hs, pure, Except.pure]
        exact r1
      · rw [r4]
        cases ks with
        | nil => rfl
        | cons y ys => rw [List.getLast?_cons_cons]; simp [List.getLast?_cons]
      · rw [hck]; exact r6

/-- After any run, every process has occurred as often as it was picked, and the occurrences add up
to the number of steps; the same for the steady occurrences and the steps from `tof_start` on. The
time ends at the last step, and starts at the first counted step when no counted step is at time
zero. -/
theorem C54_counts [Zero K] [DecidableEq K] (n : Nat) (tofStart : Int) (ks : List (KStep K)) (hk : ∀ k ∈ ks, k.picked < n) :
    ∃ s, FreqState.run tofStart (FreqState.init n) ks = .ok s ∧
      s.occ.length = n ∧ (∀ p, p < n → s.occ[p]? = some (ks.countP fun k => k.picked = p)) ∧ s.occ.sum = ks.length ∧
      s.steady.length = n ∧
      (∀ p, p < n → s.steady[p]? = some (ks.countP fun k => decide (tofStart ≤ k.step) && decide (k.picked = p))) ∧
      s.steady.sum = ks.countP (fun k => tofStart ≤ k.step) ∧
      (∀ k, ks.getLast? = some k → s.stop = k.time) ∧
      ((∀ k ∈ ks, tofStart ≤ k.step → k.time ≠ 0) →
        ∀ k, ks.find? (fun k => tofStart ≤ k.step) = some k → s.start = k.time) := by
  obtain ⟨s, h1, h2, h3, h4, _, h6⟩ := freq_run (n := n) (tofStart := tofStart) ks [] (FreqState.init n) hk (counts_nil n)
    (counts_nil n)
  rw [List.nil_append] at h2 h3
  refine ⟨s, h1, h2.1, h2.2, counts_sum h2 hk, h3.1, ?_, ?_, ?_, ?_⟩
  · intro p hp
    rw [h3.2 p hp]
    unfold pickCount counted
    rw [List.countP_filter]
    congr 2
    funext k
    rw [Bool.and_comm]
  · rw [counts_sum h3 fun k hkk => hk k (List.mem_filter.mp hkk).1]
    unfold counted
    rw [List.countP_eq_length_filter]
  · intro k hkl
    rw [h4, hkl]
  · intro ht k hf
    rw [h6 rfl fun x hx => ht x (List.mem_filter.mp hx).1 (by simpa using (List.mem_filter.mp hx).2)]
    unfold counted
    cases hfil : ks.filter (fun k => decide (tofStart ≤ k.step)) with
    | nil =>
      have := List.find?_some hf
      have hm := List.mem_of_find?_eq_some hf
      have : k ∈ ks.filter (fun k => decide (tofStart ≤ k.step)) := List.mem_filter.mpr ⟨hm, this⟩
      rw [hfil] at this; exact nomatch this
    | cons y ys =>
      have : (ks.filter (fun k => decide (tofStart ≤ k.step))).head? = some k := by
        rw [List.head?_filter]; exact hf
      rw [hfil] at this
      rw [Option.some.inj this]

example : ∃ s : FreqState ℚ, FreqState.run 2 (FreqState.init 3) [⟨1, 1, 0⟩, ⟨2, 3, 2⟩, ⟨3, 4, 0⟩, ⟨4, 6, 2⟩] = .ok s ∧
    s.occ = [2, 0, 2] ∧ s.steady = [1, 0, 2] ∧ s.start = 3 ∧ s.stop = 6 := ⟨_, rfl, rfl, rfl, by decide +kernel, by decide +kernel⟩

/-- A step at time zero is not taken for the start. -/
theorem C54_zero_time_refuted : ∃ s : FreqState ℚ, FreqState.run 0 (FreqState.init 1) [⟨1, 0, 0⟩, ⟨2, 5, 0⟩] = .ok s ∧
    s.steady = [2] ∧ s.start = 5 ∧ s.stop = 5 := ⟨_, rfl, rfl, by decide +kernel, by decide +kernel⟩

/-- A picked index outside the process list raises. -/
theorem C54_index [Zero K] [DecidableEq K] (n : Nat) (tofStart : Int) (k : KStep K) (ks : List (KStep K)) (hk : n ≤ k.picked) :
    FreqState.run tofStart (FreqState.init n) (k :: ks) = .error .IndexError := by
  unfold FreqState.run FreqState.register bumpAt FreqState.init
  rw [if_neg (by simpa using hk)]
  rfl

/-- The number of events with a label. -/
def labelSum (mapping : List Str) (occ : List Nat) (r : Str) : Nat :=
  ((occ.zip mapping).map fun p => if p.2 = r then p.1 else 0).sum

theorem get?_bump {d : Dict Str Nat} {k r : Str} {v : Nat} :
    get? (Dict.bump d k v) r = if k = r then some ((get? d r).getD 0 + v) else get? d r := by
  induction d with
  | nil => by_cases h : k = r <;> simp [Dict.bump, get?, h]
  | cons p d ih =>
    obtain ⟨a, w⟩ := p
    unfold Dict.bump
    by_cases ha : a = k
    · rw [if_pos ha]
      by_cases h : k = r
      · simp [get?, ha, h]
      · have : ¬ a = r := fun e => h (ha ▸ e)
        simp [get?, this, h]
    · rw [if_neg ha]
      by_cases har : a = r
      · have : ¬ k = r := fun e => ha (har.trans e.symm)
        simp [get?, har, this]
      · simp only [get?, har, if_false]
        exact ih

theorem occurrences_get? (mapping : List Str) (occ : List Nat) (r : Str) :
    get? (reactionOccurrences mapping occ) r = if r ∈ mapping then some (labelSum mapping occ r) else none := by
  have base : ∀ (l : List Str) (d : Dict Str Nat), get? (l.foldl (fun d r => Dict.bump d r 0) d) r
      = if r ∈ l then some ((get? d r).getD 0) else get? d r := by
    intro l
    induction l with
    | nil => intro d; simp
    | cons x l ih =>
      intro d
      rw [List.foldl_cons, ih, get?_bump]
      by_cases hx : x = r
      · by_cases hr : r ∈ l <;> simp [hx, hr]
      · have hx' : ¬ r = x := fun e => hx e.symm
        simp [hx, hx']
  have fill : ∀ (l : List (Nat × Str)) (d : Dict Str Nat) (v : Nat), get? d r = some v →
      get? (l.foldl (fun d p => Dict.bump d p.2 p.1) d) r = some (v + (l.map fun p => if p.2 = r then p.1 else 0).sum) := by
    intro l
    induction l with
    | nil => intro d v h; simpa using h
    | cons x l ih =>
      intro d v h
      rw [List.foldl_cons]
      by_cases hx : x.2 = r
      · rw [ih _ (v + x.1) (by rw [get?_bump, if_pos hx, h]; rfl)]
        simp [hx, Nat.add_assoc]
      · rw [ih _ v (by rw [get?_bump, if_neg hx, h])]
        simp [hx]
  have fillNone : ∀ (l : List (Nat × Str)) (d : Dict Str Nat), (∀ p ∈ l, p.2 ≠ r) → get? d r = none →
      get? (l.foldl (fun d p => Dict.bump d p.2 p.1) d) r = none := by
    intro l
    induction l with
    | nil => intro d _ h; exact h
    | cons x l ih =>
      intro d hl h
      rw [List.foldl_cons]
      exact ih _ (fun p hp => hl p (by simp [hp])) (by rw [get?_bump, if_neg (hl x (by simp)), h])
  unfold reactionOccurrences labelSum
  by_cases hr : r ∈ mapping
  · rw [if_pos hr, fill _ _ 0 (by rw [base, if_pos hr]; rfl), Nat.zero_add]
  · rw [if_neg hr]
    apply fillNone
    · intro p hp e
      exact hr (e ▸ (List.of_mem_zip hp).2)
    · rw [base, if_neg hr]; rfl

/-- Every label has the events of the processes with this label; when there is a label for every
process, the dictionary adds up to all events. -/
theorem C54_reactions (mapping : List Str) (occ : List Nat) :
    (∀ r, get? (reactionOccurrences mapping occ) r =
      if r ∈ mapping then some (((occ.zip mapping).map fun p => if p.2 = r then p.1 else 0).sum) else none) ∧
    (occ.length ≤ mapping.length → ((reactionOccurrences mapping occ).map (·.2)).sum = occ.sum) := by
  refine ⟨fun r => occurrences_get? mapping occ r, fun hl => ?_⟩
  have sumBump : ∀ (d : Dict Str Nat) (k : Str) (v : Nat), ((Dict.bump d k v).map (·.2)).sum = (d.map (·.2)).sum + v := by
    intro d k v
    induction d with
    | nil => simp [Dict.bump]
    | cons p d ih =>
      obtain ⟨a, w⟩ := p
      unfold Dict.bump
      by_cases ha : a = k
      · rw [if_pos ha]; simp only [List.map_cons, List.sum_cons]; omega
      · rw [if_neg ha]; simp only [List.map_cons, List.sum_cons]; omega
  have f1 : ∀ (l : List Str) (d : Dict Str Nat), ((l.foldl (fun d r => Dict.bump d r 0) d).map (·.2)).sum = (d.map (·.2)).sum := by
    intro l
    induction l with
    | nil => intro d; rfl
    | cons x l ih => intro d; rw [List.foldl_cons, ih, sumBump, Nat.add_zero]
  have f2 : ∀ (l : List (Nat × Str)) (d : Dict Str Nat), ((l.foldl (fun d p => Dict.bump d p.2 p.1) d).map (·.2)).sum
      = (d.map (·.2)).sum + (l.map (·.1)).sum := by
    intro l
    induction l with
    | nil => intro d; simp
    | cons x l ih => intro d; rw [List.foldl_cons, ih, sumBump]; simp only [List.map_cons, List.sum_cons]; omega
  unfold reactionOccurrences
  rw [f2, f1, List.map_fst_zip hl]
  simp

/-- With fast processes there are fewer labels than processes, and events are lost. -/
theorem C54_labels_refuted : ∃ procs m, getProcesses exKmc [exKmcAds false false, exHop true false] [] = (.ok procs, m) ∧
    ∃ occ : List Nat, occ.length = procs.length ∧ occ.sum = 1 ∧ ((reactionOccurrences m occ).map (·.2)).sum = 0 :=
  ⟨_, _, rfl, [0, 0, 0, 0, 1, 0], rfl, rfl, by decide⟩

/-- The reported rates are the steady occurrences over time and sites. Missing: runs without time
between the first counted and the last step (`C54_single_refuted`). -/
theorem C54_rates_partial [Field K] [DecidableEq K] (mapping : List Str) (nsites : Int) (s : FreqState K)
    (h : (s.stop - s.start) * (nsites : K) ≠ 0) :
    ∃ rates, s.finalize mapping nsites = .ok (s.occ, reactionOccurrences mapping s.occ, reactionOccurrences mapping s.steady, rates) ∧
      ∀ r, get? rates r = if r ∈ mapping then
        some ((labelSum mapping s.steady r : K) / ((s.stop - s.start) * (nsites : K))) else none := by
  have run : ∀ d : Dict Str Nat, reactionRates nsites s d = .ok (d.map fun p => (p.1, (p.2 : K) / ((s.stop - s.start) * (nsites : K)))) := by
    intro d
    unfold reactionRates
    induction d with
    | nil => rfl
    | cons p d ih =>
      rw [List.mapM_cons, ih, if_neg h]
      rfl
  have look : ∀ (d : Dict Str Nat) (r : Str), get? (d.map fun p => (p.1, (p.2 : K) / ((s.stop - s.start) * (nsites : K)))) r
      = (get? d r).map fun v => (v : K) / ((s.stop - s.start) * (nsites : K)) := by
    intro d r
    induction d with
    | nil => rfl
    | cons p d ih =>
      obtain ⟨a, w⟩ := p
      by_cases ha : a = r
      · simp [get?, ha]
      · simp only [List.map_cons, get?, ha, if_false]; exact ih
  refine ⟨_, by unfold FreqState.finalize; rw [run]; rfl, fun r => ?_⟩
  rw [look, occurrences_get?]
  by_cases hr : r ∈ mapping <;> simp [hr]

/-- When only one step is counted, the final division fails and nothing is written. -/
theorem C54_single_refuted [Field K] [DecidableEq K] (n : Nat) (r : Str) (nsites : Int) (k : KStep K) (hk : k.picked < n)
    (hs : 0 ≤ k.step) : ∃ s, FreqState.run 0 (FreqState.init n) [k] = .ok s ∧
      s.finalize [r] nsites = .error .ZeroDivisionError := by
  have hb : bumpAt (List.replicate n 0) k.picked = .ok ((List.replicate n 0).modify k.picked (· + 1)) :=
    bumpAt_ok (by simpa using hk)
  refine ⟨⟨(List.replicate n 0).modify k.picked (· + 1), (List.replicate n 0).modify k.picked (· + 1), k.time, k.time⟩, ?_, ?_⟩
  · unfold FreqState.run FreqState.register FreqState.init
    dsimp only
    rw [hb]
    simp only [bind, Except.bind, if_pos hs, pure, Except.pure, if_true]
    rfl
  · have hne : ∀ occ, ∃ v d, reactionOccurrences [r] occ = (r, v) :: d := by
      intro occ
      cases occ with
      | nil => exact ⟨_, _, rfl⟩
      | cons o occ => exact ⟨o, [], by simp [reactionOccurrences, Dict.bump]⟩
    unfold FreqState.finalize
    dsimp only
    obtain ⟨v, d, hv⟩ := hne ((List.replicate n 0).modify k.picked (· + 1))
    rw [hv]
    unfold reactionRates
    rw [List.mapM_cons, if_pos (by simp)]
    rfl

/-! ## C55 -/

section Tof
variable [Field K] [LinearOrder K] [IsStrictOrderedRing K]

/-- Records that belong to a run: windows one after another, each ending with the first step that is
later than the interval, with the number of events of every process per site and time; the steps
after the last window are within the interval. -/
inductive Windowed (n : Nat) (nsites : Int) (interval : K) : K → List (KStep K) → List (K × List K) → Prop
  | rest {start : K} {ks : List (KStep K)} : (∀ k ∈ ks, k.time - start ≤ interval) → Windowed n nsites interval start ks []
  | window {start : K} {w : List (KStep K)} {last : KStep K} {tof : List K} {ks : List (KStep K)} {recs : List (K × List K)} :
      (∀ k ∈ w, k.time - start ≤ interval) → last.time - start > interval → tof.length = n →
      (∀ (p : Nat) (t : K), tof[p]? = some t →
        t * (last.time - start) * nsites = ((w ++ [last]).countP fun k => k.picked = p : Nat)) →
      Windowed n nsites interval last.time ks recs →
      Windowed n nsites interval start (w ++ last :: ks) ((start, tof) :: recs)

theorem tof_run {n : Nat} {nsites : Int} {interval : K} (hn : nsites ≠ 0) (hi : 0 ≤ interval) : ∀ (ks w : List (KStep K)) (s : TofState K),
    (∀ k ∈ ks, k.picked < n) → (∀ k ∈ w, k.time - s.start ≤ interval) → Counts n w s.occ →
    ∃ s' recs, TofState.run n nsites interval s ks = .ok (s', recs) ∧ Windowed n nsites interval s.start (w ++ ks) recs
  | [], w, s, _, hw, _ => ⟨s, [], rfl, .rest (by simpa using hw)⟩
  | k :: ks, w, s, hk, hw, hc => by
    obtain ⟨b1, c1⟩ := counts_bump hc k (hk k (by simp))
    unfold TofState.run TofState.register
    rw [b1]
    by_cases ht : k.time - s.start > interval
    · have hd : (0 : K) < k.time - s.start := lt_of_le_of_lt hi ht
      have hns : (nsites : K) ≠ 0 := by exact_mod_cast hn
      have hne : ¬ ((nsites : K) * (k.time - s.start) = 0 ∧ s.occ.modify k.picked (· + 1) ≠ []) := by
        rintro ⟨h, _⟩
        exact mul_ne_zero hns hd.ne' h
      obtain ⟨s', recs, r1, r2⟩ := tof_run hn hi ks [] ⟨List.replicate n 0, k.time⟩
        (fun x hx => hk x (by simp [hx])) (by simp) (counts_nil n)
      refine ⟨s', (s.start, (s.occ.modify k.picked (· + 1)).map fun n : Nat => (n : K) / ((nsites : K) * (k.time - s.start))) :: recs, ?_, ?_⟩
      · simp only [bind, Except.bind, if_pos ht, if_neg hne, r1, pure, Except.pure, Option.toList,
          List.singleton_append]
      · refine .window hw ht (by rw [List.length_map]; exact c1.1) ?_ (by simpa using r2)
        intro p t hpt
        rw [List.getElem?_map] at hpt
        by_cases hp : p < n
        · rw [c1.2 p hp] at hpt
          have : ((pickCount (w ++ [k]) p : Nat) : K) / ((nsites : K) * (k.time - s.start)) = t := by simpa using hpt
          rw [← this]
          unfold pickCount
          field_simp
        · rw [List.getElem?_eq_none (by rw [c1.1]; omega)] at hpt
          exact nomatch hpt
    · obtain ⟨s', recs, r1, r2⟩ := tof_run hn hi ks (w ++ [k]) ⟨s.occ.modify k.picked (· + 1), s.start⟩
        (fun x hx => hk x (by simp [hx])) (by
          intro x hx
          rcases List.mem_append.mp hx with hx | hx
          · exact hw x hx
          · rw [List.mem_singleton.mp hx]; exact not_lt.mp ht) c1
      refine ⟨s', recs, ?_, by simpa using r2⟩
      simp only [bind, Except.bind, if_neg ht, r1, pure, Except.pure, Option.toList, List.nil_append]

/-- The reported frequencies are those of windows one after another, the first from time zero.
Missing: the events after the last window (`C55_tail_refuted`), and a start of the run at another
time than zero (`C55_start_refuted`). -/
theorem C55_windows_partial (n : Nat) (nsites : Int) (interval : K) (hn : nsites ≠ 0) (hi : 0 ≤ interval) (ks : List (KStep K))
    (hk : ∀ k ∈ ks, k.picked < n) :
    ∃ s recs, TofState.run n nsites interval (TofState.init n) ks = .ok (s, recs) ∧ Windowed n nsites interval 0 ks recs := by
  have := tof_run hn hi ks [] (TofState.init n) hk (by simp) (counts_nil n)
  simpa [TofState.init] using this

omit [IsStrictOrderedRing K] in
/-- The records determine the windows: read off a run, the events in the windows and those left
over are all events. -/
theorem C55_events (n : Nat) (nsites : Int) (interval start : K) (ks : List (KStep K)) (recs : List (K × List K))
    (h : Windowed n nsites interval start ks recs) : ∃ (ws : List (List (KStep K))) (rest : List (KStep K)),
      ks = ws.flatten ++ rest ∧ ws.length = recs.length ∧ (∀ w ∈ ws, w ≠ []) ∧
      ∀ (i : Nat) (w : List (KStep K)) (t : K) (tof : List K), ws[i]? = some w → recs[i]? = some (t, tof) →
        ∃ last, w.getLast? = some last ∧ last.time - t > interval ∧
          (∀ t' tof', recs[i + 1]? = some (t', tof') → t' = last.time) ∧
          ∀ (p : Nat) (f : K), tof[p]? = some f → f * (last.time - t) * nsites = (w.countP fun k => k.picked = p : Nat) := by
  induction h with
  | @rest start ks h => exact ⟨[], ks, by simp, rfl, by simp, by simp⟩
  | @window start w last tof ks recs h1 h2 h3 h4 h5 ih =>
    obtain ⟨ws, rest, e1, e2, e3, e4⟩ := ih
    refine ⟨(w ++ [last]) :: ws, rest, by rw [e1]; simp, by simp [e2], ?_, ?_⟩
    · intro x hx
      rcases List.mem_cons.mp hx with rfl | hx
      · simp
      · exact e3 x hx
    · intro i x t tof' hx hr
      cases i with
      | zero =>
        have hx' : w ++ [last] = x := by simpa using hx
        have hr' : (start, tof) = (t, tof') := by simpa using hr
        cases hr'
        subst hx'
        refine ⟨last, by simp, h2, ?_, h4⟩
        intro t' tof'' h'
        cases h5 with
        | rest _ => simp at h'
        | window _ _ _ _ _ =>
          simp at h'
          exact h'.1.symm
      | succ i => exact e4 i x t tof' (by simpa using hx) (by simpa using hr)

end Tof

example : TofState.run (K := ℚ) 2 3 1 (TofState.init 2) [⟨1, 1 / 2, 0⟩, ⟨2, 2, 1⟩, ⟨3, 4, 1⟩, ⟨4, 9 / 2, 0⟩]
    = .ok (⟨[1, 0], 4⟩, [(0, [1 / 6, 1 / 6]), (2, [0, 1 / 6])]) := by decide +kernel

/-- The events after the last window are in no record: a run of any length whose steps are all
within the interval reports nothing. -/
theorem C55_tail_refuted [Field K] [LinearOrder K] [IsStrictOrderedRing K] (n : Nat) (nsites : Int) (interval : K)
    (ks : List (KStep K)) (hk : ∀ k ∈ ks, k.picked < n) (ht : ∀ k ∈ ks, k.time ≤ interval) :
    ∃ s, TofState.run n nsites interval (TofState.init n) ks = .ok (s, []) := by
  have gen : ∀ (ks : List (KStep K)) (s : TofState K), s.occ.length = n → s.start = 0 → (∀ k ∈ ks, k.picked < n) →
      (∀ k ∈ ks, k.time ≤ interval) → ∃ s', TofState.run n nsites interval s ks = .ok (s', []) := by
    intro ks
    induction ks with
    | nil => intro s _ _ _ _; exact ⟨s, rfl⟩
    | cons k ks ih =>
      intro s hl h0 hk ht
      obtain ⟨s', hs'⟩ := ih ⟨s.occ.modify k.picked (· + 1), s.start⟩ (by simpa using hl) h0
        (fun x hx => hk x (by simp [hx])) (fun x hx => ht x (by simp [hx]))
      refine ⟨s', ?_⟩
      unfold TofState.run TofState.register
      rw [bumpAt_ok (by rw [hl]; exact hk k (by simp))]
      have hn : ¬ (k.time - s.start > interval) := by
        rw [h0, sub_zero]; exact not_lt.mpr (ht k (by simp))
      simp only [bind, Except.bind, if_neg hn, hs', pure, Except.pure, Option.toList, List.nil_append]
  exact gen ks _ (by simp [TofState.init]) rfl hk ht

/-- A run that starts at time 100: the first window begins at zero and closes with the first event,
so the frequency is a hundredth of what it should be. -/
theorem C55_start_refuted : TofState.run (K := ℚ) 1 1 10 (TofState.init 1) [⟨1, 101, 0⟩, ⟨2, 102, 0⟩]
    = .ok (⟨[1], 101⟩, [(0, [1 / 101])]) := by decide +kernel

/-! ## C56 -/

/-- With non-negative sites and rates, a positive total and a label for every process, the rows are
numbered in order, their probabilities are non-negative, proportional to sites times rate, and add
up to one. Missing: fewer labels than processes, where they add up to less, and a total of zero,
which raises (`C56_labels_refuted`, `C56_zero`). -/
theorem C56_table_partial [Field K] [LinearOrder K] [IsStrictOrderedRing K] (mapping : List Str) (sites : List Nat) (rates : List K)
    (hl : rates.length = sites.length) (hm : mapping.length = sites.length) (hr : ∀ r ∈ rates, 0 ≤ r)
    (ht : (List.zipWith (fun (n : Nat) r => (n : K) * r) sites rates).sum ≠ 0) :
    ∃ table, interactionsTable mapping sites rates = .ok table ∧ table.length = sites.length ∧
      (table.map (·.prob)).sum = 1 ∧
      ∀ (i : Nat) (row : EventRow K), table[i]? = some row → row.idx = i ∧ mapping[i]? = some row.rxn ∧ sites[i]? = some row.sites ∧
        0 ≤ row.prob ∧ ∃ r, rates[i]? = some r ∧ row.rate = row.sites * r ∧
        row.prob * (List.zipWith (fun (n : Nat) r => (n : K) * r) sites rates).sum = row.sites * r := by
  have htl : (List.zipWith (fun (n : Nat) r => (n : K) * r) sites rates).length = sites.length := by simp [hl]
  have hpos : ∀ x ∈ List.zipWith (fun (n : Nat) r => (n : K) * r) sites rates, 0 ≤ x := by
    intro x hx
    obtain ⟨i, hi⟩ := List.mem_iff_getElem?.mp hx
    rw [List.getElem?_zipWith] at hi
    cases h1 : sites[i]? with
    | none => rw [h1] at hi; exact nomatch hi
    | some n =>
      cases h2 : rates[i]? with
      | none => rw [h1, h2] at hi; exact nomatch hi
      | some r =>
        rw [h1, h2] at hi
        have : (n : K) * r = x := by simpa using hi
        rw [← this]
        exact mul_nonneg (Nat.cast_nonneg n) (hr r (List.mem_of_getElem? h2))
  have hsum : 0 < (List.zipWith (fun (n : Nat) r => (n : K) * r) sites rates).sum :=
    lt_of_le_of_ne (List.sum_nonneg hpos) (Ne.symm ht)
  unfold interactionsTable
  dsimp only
  rw [if_neg (fun h => ht h.1)]
  have hzw : ∀ (i : Nat) (x : K), (List.zipWith (fun (n : Nat) r => (n : K) * r) sites rates)[i]? = some x →
      ∃ n r, sites[i]? = some n ∧ rates[i]? = some r ∧ x = n * r := by
    intro i x hi
    rw [List.getElem?_zipWith] at hi
    cases h1 : sites[i]? with
    | none => rw [h1] at hi; exact nomatch hi
    | some n =>
      cases h2 : rates[i]? with
      | none => rw [h1, h2] at hi; exact nomatch hi
      | some r =>
        rw [h1, h2] at hi
        exact ⟨n, r, rfl, rfl, (by simpa using hi : (n : K) * r = x).symm⟩
  generalize htot : List.zipWith (fun (n : Nat) r => (n : K) * r) sites rates = total at *
  have hz2 : (total.zip (total.map (· / total.sum))).length = sites.length := by simp [htl]
  have hz3 : (sites.zip (total.zip (total.map (· / total.sum)))).length = sites.length := by simp [htl]
  refine ⟨_, rfl, by simp [hm, htl], ?_, ?_⟩
  · have : ((mapping.zip (sites.zip (total.zip (total.map (· / total.sum))))).zipIdx.map
        fun p => (⟨p.2, p.1.1, p.1.2.1, p.1.2.2.1, p.1.2.2.2⟩ : EventRow K)).map (·.prob) = total.map (· / total.sum) := by
      rw [List.map_map]
      apply List.ext_getElem?
      intro i
      rw [List.getElem?_map, List.getElem?_zipIdx]
      by_cases hi : i < sites.length
      · have e1 : i < mapping.length := by omega
        have e2 : i < total.length := by omega
        simp [List.zip, hi, e1, e2]
      · have e2 : total.length ≤ i := by omega
        simp [List.zip, e2]
    rw [this]
    simp only [div_eq_mul_inv]
    rw [List.sum_map_mul_right, List.map_id', mul_inv_cancel₀ ht]
  · intro i row hrow
    rw [List.getElem?_map, List.getElem?_zipIdx] at hrow
    cases hz : (mapping.zip (sites.zip (total.zip (total.map (· / total.sum)))))[i]? with
    | none => rw [hz] at hrow; exact nomatch hrow
    | some z =>
      rw [hz] at hrow
      have hrow' : (⟨0 + i, z.1, z.2.1, z.2.2.1, z.2.2.2⟩ : EventRow K) = row := by simpa using hrow
      obtain ⟨z1, hz'⟩ := List.getElem?_zip_eq_some.mp hz
      obtain ⟨z2, hz''⟩ := List.getElem?_zip_eq_some.mp hz'
      obtain ⟨z3, z4⟩ := List.getElem?_zip_eq_some.mp hz''
      obtain ⟨n, r, h1, h2, h3⟩ := hzw i _ z3
      rw [List.getElem?_map, z3] at z4
      have z4' : z.2.2.1 / total.sum = z.2.2.2 := by simpa using z4
      rw [z2] at h1
      have hn : z.2.1 = n := Option.some.inj h1
      subst hrow'
      refine ⟨by simp, z1, z2, ?_, r, h2, ?_, ?_⟩
      · dsimp only
        rw [← z4']
        exact div_nonneg (hpos _ (List.mem_of_getElem? z3)) hsum.le
      · dsimp only; rw [h3, hn]
      · dsimp only
        rw [← z4', div_mul_cancel₀ _ ht, h3, hn]

example : interactionsTable [str! "a(->)", str! "a(<-)"] [3, 1] [(1 : ℚ), 2] = .ok [⟨0, str! "a(->)", 3, 3, 3 / 5⟩, ⟨1, str! "a(<-)", 1, 2, 2 / 5⟩] := by
  decide +kernel

/-- With fewer labels than processes the listed probabilities do not add up to one. -/
theorem C56_labels_refuted : ∃ table, interactionsTable [str! "a(->)"] [3, 1] [(1 : ℚ), 2] = .ok table ∧
    (table.map (·.prob)).sum = 3 / 5 :=
  ⟨[⟨0, str! "a(->)", 3, 3, 3 / 5⟩], by decide +kernel, by decide +kernel⟩

/-- Without available events the table raises. -/
theorem C56_zero [Field K] [DecidableEq K] (mapping : List Str) (sites : List Nat) (rates : List K)
    (hne : List.zipWith (fun (n : Nat) r => (n : K) * r) sites rates ≠ [])
    (h : (List.zipWith (fun (n : Nat) r => (n : K) * r) sites rates).sum = 0) :
    interactionsTable mapping sites rates = .error .ZeroDivisionError := by
  unfold interactionsTable
  dsimp only
  rw [if_pos ⟨h, hne⟩]

/-- Whatever the buffer size, the file has every table but the last one once and in order, each with
the step and the choice of the step after it. Missing: the last table (`C56_last_refuted`). -/
theorem C56_written_partial {T : Type} (bufferSize : Nat) (l : List (Int × List T × Nat)) (hne : ∀ x ∈ l, x.2.1 ≠ []) :
    EventState.written bufferSize ⟨[], [], [], 0⟩ l =
      (l.zip l.tail).map fun p => (p.2.1, p.1.2.1, p.2.2.2) := by
  have gen : ∀ (l : List (Int × List T × Nat)) (s : EventState T), (∀ x ∈ l, x.2.1 ≠ []) → s.previous ≠ [] →
      ∀ (y : Int × List T × Nat), y.2.1 = s.previous →
      EventState.written bufferSize s l = s.file ++ s.buffer ++ ((y :: l).zip l).map fun p => (p.2.1, p.1.2.1, p.2.2.2) := by
    intro l
    induction l with
    | nil => intro s _ _ y _; simp [EventState.written, EventState.flush]
    | cons x l ih =>
      intro s hl hp y hy
      obtain ⟨step, table, picked⟩ := x
      have hpush : s.push step table picked
          = { s with buffer := s.buffer ++ [(step, s.previous, picked)], counter := s.counter + 1, previous := table } := by
        unfold EventState.push; rw [if_neg hp]
      have htab : table ≠ [] := hl (step, table, picked) (by simp)
      rw [EventState.written, EventState.register, hpush]
      dsimp only
      by_cases hb : bufferSize ≤ s.counter + 1
      · rw [if_pos hb, ih _ (fun z hz => hl z (by simp [hz])) (by simpa [EventState.flush] using htab)
          (step, table, picked) (by simp [EventState.flush])]
        simp [EventState.flush, hy]
      · rw [if_neg hb, ih _ (fun z hz => hl z (by simp [hz])) htab (step, table, picked) rfl]
        simp [hy]
  cases l with
  | nil => rfl
  | cons x l =>
    obtain ⟨step, table, picked⟩ := x
    have htab : table ≠ [] := hne (step, table, picked) (by simp)
    have hpush : (⟨[], [], [], 0⟩ : EventState T).push step table picked = ⟨[], [], table, 0⟩ := by
      unfold EventState.push; rw [if_pos rfl]
    rw [EventState.written, EventState.register, hpush]
    dsimp only
    by_cases hb : bufferSize ≤ 0
    · rw [if_pos hb, gen l _ (fun z hz => hne z (by simp [hz])) (by simpa [EventState.flush] using htab)
        (step, table, picked) (by simp [EventState.flush])]
      simp [EventState.flush]
    · rw [if_neg hb, gen l _ (fun z hz => hne z (by simp [hz])) htab (step, table, picked) rfl]
      simp

example : EventState.written 2 ⟨[], [], [], 0⟩ [(1, [7], 0), (2, [8], 1), (3, [9], 5), (4, [10], 2)]
    = [(2, [7], 1), (3, [8], 5), (4, [9], 2)] := by decide

/-- The last table is never written; a run of one step writes no table at all. -/
theorem C56_last_refuted {T : Type} (bufferSize : Nat) (x : Int × List T × Nat) (hx : x.2.1 ≠ []) :
    EventState.written bufferSize ⟨[], [], [], 0⟩ [x] = [] := by
  rw [C56_written_partial bufferSize [x] (by simpa using hx)]
  rfl

/-! ### The theorems at these cases -/

example := C51_mapping_partial exKmc [exKmcAds false false, exHop true true] _ _ rfl (by decide)

example := C51_pairs exKmc [exKmcAds false false, exHop false false] _ _ rfl (by decide)

example := C51_twice_refuted exKmc [exKmcAds false false, exHop true true] _ _ rfl

example := C52_sum [str! "O", str! "V", str! "C"] (str! "V") [(1 / 2 : ℚ), 1 / 4] exCells.flatten [1 / 4, 3 / 8, 3 / 8] (by decide +kernel)

example := C52_coverages_partial [str! "O", str! "V", str! "C"] (str! "V") [(1 / 2 : ℚ), 1 / 4] exCells (by decide) (by decide) (by simp) (by decide) (by decide)

example := C53_agree_partial [str! "O", str! "C"] [(1 / 2 : ℚ), 1 / 4] exCells (by decide) (by simp) (by decide) (by decide)

example := C54_counts (K := ℚ) 3 2 [⟨1, 1, 0⟩, ⟨2, 3, 2⟩, ⟨3, 4, 0⟩, ⟨4, 6, 2⟩] (by simp)

example := C54_index (K := ℚ) 3 2 ⟨1, 1, 5⟩ [⟨2, 3, 2⟩] (by decide)

example := C54_rates_partial (K := ℚ) [str! "a(->)", str! "a(<-)"] 2 ⟨[3, 4], [1, 2], 3, 6⟩ (by norm_num)

example := C54_single_refuted (K := ℚ) 3 (str! "a(->)") 2 ⟨1, 5, 2⟩ (by decide) (by decide)

example := C55_windows_partial (K := ℚ) 2 3 1 (by decide) (by decide) [⟨1, 1 / 2, 0⟩, ⟨2, 2, 1⟩, ⟨3, 4, 1⟩, ⟨4, 9 / 2, 0⟩] (by simp)

example := C55_tail_refuted (K := ℚ) 2 3 5 [⟨1, 1 / 2, 0⟩, ⟨2, 2, 1⟩, ⟨3, 4, 1⟩, ⟨4, 9 / 2, 0⟩] (by simp) (by decide +kernel)

example := C56_table_partial [str! "a(->)", str! "a(<-)"] [3, 1] [(1 : ℚ), 2] rfl rfl (by decide +kernel) (by decide +kernel)

example := C56_zero [str! "a(->)", str! "a(<-)"] [3, 0] [(0 : ℚ), 2] (by decide) (by decide +kernel)

example := C56_written_partial 2 [(1, [7], 0), (2, [8], 1), (3, [9], 5), (4, [10], 2)] (by decide)

example := C56_last_refuted 2 ((1, [7], 0) : Int × List Nat × Nat) (by decide)

end Verif
