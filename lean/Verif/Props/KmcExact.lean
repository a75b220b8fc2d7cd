import Verif.Props.Kmc
import Mathlib.Tactic.Ring
import Mathlib.Tactic.Linarith
import Mathlib.Algebra.Order.BigOperators.Group.List
/-
C51, C55, C56: exactly when the labels fit the processes, which events the turnover windows leave
out, and when the probabilities of a table add up to one.
-/
namespace Verif
open Dict

variable {K : Type} {C : Type}

/-! ## C51 -/

/-- The labels fit the slow processes exactly when every redistribution process that is not marked
as fast has no place to happen; otherwise there is one label too many for each of its places. -/
theorem C51_labels_iff (o : KmcOwner K) (ds : List (ProcDict C)) (procs : List (KProc K C)) (m : List Str)
    (h : getProcesses o ds [] = (.ok procs, m)) :
    m.length = (procs.filter fun p => !p.fast).length +
      (ds.map fun d => if d.redist && !d.fast then d.basis.length * d.coords.length else 0).sum ∧
    (List.Forall₂ (Described o ds) (procs.filter fun p => !p.fast) m ↔
      ∀ d ∈ ds, d.redist = true → d.fast = true ∨ d.basis = [] ∨ d.coords = []) := by
  have gen : ∀ (es : List (ProcDict C)) (m0 m : List Str) (procs : List (KProc K C)), (∀ d ∈ es, d ∈ ds) →
      getProcesses o es m0 = (.ok procs, m) →
      ∃ m1, m = m0 ++ m1 ∧
        m1.length = (procs.filter fun p => !p.fast).length +
          (es.map fun d => if d.redist && !d.fast then d.basis.length * d.coords.length else 0).sum ∧
        ((∀ d ∈ es, d.redist = true → d.fast = true ∨ d.basis = [] ∨ d.coords = []) →
          List.Forall₂ (Described o ds) (procs.filter fun p => !p.fast) m1) := by
    intro es
    induction es with
    | nil =>
      intro m0 m procs _ h
      have h1 : [] = procs := Except.ok.inj (congrArg Prod.fst h)
      have h2 : m0 = m := congrArg Prod.snd h
      subst h1; subst h2
      exact ⟨[], by simp, by simp, by simp⟩
    | cons d es ih =>
      intro m0 m procs hsub h
      obtain ⟨qs, qs', m1, h1, h2, rfl⟩ := processes_cons h
      obtain ⟨rf, rr, hrate, hq, rfl⟩ := single_spec h1
      obtain ⟨m2, rfl, h3, h4⟩ := ih _ _ _ (fun x hx => hsub x (by simp [hx])) h2
      have hd := hsub d (by simp)
      refine ⟨_, List.append_assoc _ _ _, ?_, ?_⟩
      · rw [List.filter_append, List.length_append, List.length_append, h3, List.map_cons, List.sum_cons]
        have key : ∀ bs : List Int, ((bs.flatMap fun b => d.coords.map fun c => processPair d rf rr b c).flatMap (·.2)).length
            = (((bs.flatMap fun b => d.coords.map fun c => processPair d rf rr b c).flatMap (·.1)).filter fun p => !p.fast).length
              + if d.redist && !d.fast then bs.length * d.coords.length else 0 := by
          intro bs
          induction bs with
          | nil => simp
          | cons b bs ihb =>
            have one : ∀ cs : List C, ((cs.map fun c => processPair d rf rr b c).flatMap (·.2)).length
                = (((cs.map fun c => processPair d rf rr b c).flatMap (·.1)).filter fun p => !p.fast).length
                  + if d.redist && !d.fast then cs.length else 0 := by
              intro cs
              induction cs with
              | nil => simp
              | cons c cs ihc =>
                simp only [List.map_cons, List.flatMap_cons, List.length_append, List.filter_append]
                rw [ihc]
                unfold processPair
                cases d.fast <;> cases d.redist <;> simp <;> omega
            rw [List.flatMap_cons, List.flatMap_append, List.flatMap_append, List.filter_append, List.length_append,
              List.length_append, one, ihb]
            cases d.redist && !d.fast <;> simp [Nat.add_mul] <;> omega
        rw [hq, key]
        omega
      · intro hall
        rw [List.filter_append]
        refine List.rel_append ?_ (h4 fun x hx => hall x (by simp [hx]))
        rw [hq, List.filter_flatMap]
        apply forall2_flatMap
        intro x hx
        obtain ⟨b, hb, hx⟩ := List.mem_flatMap.mp hx
        obtain ⟨c, hc, rfl⟩ := List.mem_map.mp hx
        unfold processPair
        cases hf : d.fast with
        | true => cases d.redist <;> simp
        | false =>
          have hnr : d.redist = false := by
            cases e : d.redist with
            | false => rfl
            | true =>
              rcases hall d (by simp) e with h | h | h
              · rw [h] at hf; exact nomatch hf
              · rw [h] at hb; exact absurd hb (by simp)
              · rw [h] at hc; exact absurd hc (by simp)
          simp only [hnr, Bool.false_eq_true, if_false, Bool.not_false, List.filter_cons_of_pos, List.filter_nil,
            List.singleton_append]
          refine .cons ⟨d, hd, rf, rr, hrate, hb, hc, Or.inl ⟨rfl, rfl, rfl, rfl⟩⟩
            (.cons ⟨d, hd, rf, rr, hrate, hb, hc, Or.inr ⟨rfl, rfl, rfl, rfl⟩⟩ .nil)
  obtain ⟨m1, hm, h1, h2⟩ := gen ds [] m procs (fun _ h => h) h
  rw [List.nil_append] at hm
  subst hm
  refine ⟨h1, fun hf d hd hr => ?_, h2⟩
  have hlen := hf.length_eq
  rw [h1] at hlen
  have hz : (ds.map fun d => if d.redist && !d.fast then d.basis.length * d.coords.length else 0).sum = 0 := by omega
  have hz := (List.sum_eq_zero_iff_forall_eq_nat.mp hz) _ (List.mem_map.mpr ⟨d, hd, rfl⟩)
  cases hfast : d.fast with
  | true => exact Or.inl rfl
  | false =>
    rw [hr, hfast] at hz
    simp only [Bool.not_false, Bool.and_self, if_true, Nat.mul_eq_zero, List.length_eq_zero_iff] at hz
    exact Or.inr hz

example := C51_labels_iff exKmc [exHop false true, exKmcAds false false] _ _ rfl
example := C51_labels_iff exKmc [exKmcAds false false, exHop true true] _ _ rfl

/-! ## C55 -/

section Tof
variable [Field K] [LinearOrder K] [IsStrictOrderedRing K]

/-- Events of process `p` according to the records: frequency times duration times sites, where every
record lasts until the next one begins, the last until `stop`. -/
def recordedEvents (nsites : Int) (p : Nat) : List (K × List K) → K → K
  | [], _ => 0
  | [(t, f)], stop => f.getD p 0 * (stop - t) * nsites
  | (t, f) :: (t', f') :: l, stop => f.getD p 0 * (t' - t) * nsites + recordedEvents nsites p ((t', f') :: l) stop

/-- The records account for every event up to the end of the last window and for no other; nothing is
lost exactly when the last step ends a window. -/
theorem C55_lost_iff (n : Nat) (nsites : Int) (interval : K) (hn : nsites ≠ 0) (hi : 0 ≤ interval) (ks : List (KStep K))
    (hk : ∀ k ∈ ks, k.picked < n) : ∃ (s : TofState K) (recs : List (K × List K)) (done rest : List (KStep K)),
      TofState.run n nsites interval (TofState.init n) ks = .ok (s, recs) ∧ ks = done ++ rest ∧
      (∀ k ∈ rest, k.time - s.start ≤ interval) ∧ (∀ k, done.getLast? = some k → s.start = k.time) ∧ (done = [] → s.start = 0) ∧
      (∀ p < n, recordedEvents nsites p recs s.start = (done.countP fun k => k.picked = p : Nat)) ∧
      ((∀ p < n, recordedEvents nsites p recs s.start = (ks.countP fun k => k.picked = p : Nat)) ↔ rest = []) := by
  have gen : ∀ (ks w : List (KStep K)) (s : TofState K), (∀ k ∈ ks, k.picked < n) → (∀ k ∈ w, k.time - s.start ≤ interval) →
      Counts n w s.occ → ∃ (s' : TofState K) (recs : List (K × List K)) (done rest : List (KStep K)),
        TofState.run n nsites interval s ks = .ok (s', recs) ∧ w ++ ks = done ++ rest ∧
        (∀ k ∈ rest, k.time - s'.start ≤ interval) ∧ (∀ k, done.getLast? = some k → s'.start = k.time) ∧
        (done = [] → s'.start = s.start) ∧ (recs = [] → s'.start = s.start) ∧ (∀ r, recs.head? = some r → r.1 = s.start) ∧
        (∀ p < n, recordedEvents nsites p recs s'.start = (pickCount done p : Nat)) := by
    intro ks
    induction ks with
    | nil =>
      intro w s _ hw _
      exact ⟨s, [], [], w, rfl, by simp, hw, by simp, fun _ => rfl, fun _ => rfl, by simp, fun p _ => by simp [recordedEvents, pickCount]⟩
    | cons k ks ih =>
      intro w s hk hw hc
      obtain ⟨b1, c1⟩ := counts_bump hc k (hk k (by simp))
      unfold TofState.run TofState.register
      rw [b1]
      by_cases ht : k.time - s.start > interval
      · have hd : (0 : K) < k.time - s.start := lt_of_le_of_lt hi ht
        have hns : (nsites : K) ≠ 0 := by exact_mod_cast hn
        have hne : ¬ ((nsites : K) * (k.time - s.start) = 0 ∧ s.occ.modify k.picked (· + 1) ≠ []) := by
          rintro ⟨h, _⟩
          exact mul_ne_zero hns hd.ne' h
        obtain ⟨s', recs, done, rest, r1, r2, r3, r4, r5, r6, r7, r8⟩ := ih [] ⟨List.replicate n 0, k.time⟩
          (fun x hx => hk x (by simp [hx])) (by simp) (counts_nil n)
        refine ⟨s', (s.start, (s.occ.modify k.picked (· + 1)).map fun n : Nat => (n : K) / ((nsites : K) * (k.time - s.start))) :: recs,
          w ++ k :: done, rest, ?_, ?_, r3, ?_, by simp, by simp, by simp, ?_⟩
        · simp only [bind, Except.bind, if_pos ht, if_neg hne, r1, pure, Except.pure, Option.toList, List.singleton_append]
        · rw [List.nil_append] at r2; rw [r2]; simp
        · intro x hx
          cases done with
          | nil =>
            have : x = k := by simpa using hx.symm
            rw [this]; exact r5 rfl
          | cons y done => exact r4 x (by simpa [List.getLast?_cons] using hx)
        · intro p hp
          have hf : ((s.occ.modify k.picked (· + 1)).map fun n : Nat => (n : K) / ((nsites : K) * (k.time - s.start))).getD p 0
              = (pickCount (w ++ [k]) p : Nat) / ((nsites : K) * (k.time - s.start)) := by
            rw [List.getD_eq_getElem?_getD, List.getElem?_map, c1.2 p hp]; rfl
          have hcount : pickCount (w ++ k :: done) p = pickCount (w ++ [k]) p + pickCount done p := by
            unfold pickCount
            rw [← List.countP_append]; simp
          have hmul : (pickCount (w ++ [k]) p : K) / ((nsites : K) * (k.time - s.start)) * (k.time - s.start) * nsites
              = (pickCount (w ++ [k]) p : K) := by
            field_simp
          rw [hcount, Nat.cast_add, ← r8 p hp]
          cases recs with
          | nil =>
            rw [recordedEvents, recordedEvents, hf, r6 rfl, hmul, add_zero]
          | cons r recs =>
            obtain ⟨t, f⟩ := r
            have ht' : t = k.time := r7 _ rfl
            rw [recordedEvents, hf, ht', hmul]
      · obtain ⟨s', recs, done, rest, r1, r2, r3, r4, r5, r6, r7, r8⟩ := ih (w ++ [k]) ⟨s.occ.modify k.picked (· + 1), s.start⟩
          (fun x hx => hk x (by simp [hx])) (by
            intro x hx
            rcases List.mem_append.mp hx with hx | hx
            · exact hw x hx
            · rw [List.mem_singleton.mp hx]; exact not_lt.mp ht) c1
        refine ⟨s', recs, done, rest, ?_, by rw [← r2]; simp, r3, r4, r5, r6, r7, r8⟩
        simp only [bind, Except.bind, if_neg ht, r1, pure, Except.pure, Option.toList, List.nil_append]
  obtain ⟨s, recs, done, rest, r1, r2, r3, r4, r5, -, -, r8⟩ := gen ks [] (TofState.init n) hk (by simp) (counts_nil n)
  rw [List.nil_append] at r2
  refine ⟨s, recs, done, rest, r1, r2, r3, r4, r5, r8, fun h => ?_, fun h p hp => ?_⟩
  · cases rest with
    | nil => rfl
    | cons x rest =>
      exfalso
      have hx : x.picked < n := hk x (by rw [r2]; simp)
      have e := (r8 _ hx).symm.trans (h _ hx)
      rw [r2, List.countP_append, List.countP_cons] at e
      unfold pickCount at e
      have e : List.countP (fun k => decide (k.picked = x.picked)) done = List.countP (fun k => decide (k.picked = x.picked)) done
          + (List.countP (fun k => decide (k.picked = x.picked)) rest + if decide (x.picked = x.picked) = true then 1 else 0) := by
        exact_mod_cast e
      simp at e
  · rw [r8 p hp, r2, h, List.append_nil]; rfl

/-- When the run begins at a time `t0`, the first frequency of a process that was picked at all is
the true one exactly when `t0` is zero. -/
theorem C55_start_iff (n : Nat) (nsites : Int) (interval t0 : K) (hn : nsites ≠ 0) (ks : List (KStep K))
    (t : K) (f : List K) (recs : List (K × List K)) (h : Windowed n nsites interval 0 ks ((t, f) :: recs)) :
    ∃ (w ks' : List (KStep K)) (last : KStep K), ks = w ++ last :: ks' ∧ (∀ k ∈ w, k.time ≤ interval) ∧ interval < last.time ∧
      ∀ (p : Nat) (x : K), f[p]? = some x → 0 < ((w ++ [last]).countP fun k => k.picked = p) →
        (x * (last.time - t0) * nsites = ((w ++ [last]).countP fun k => k.picked = p : Nat) ↔ t0 = 0) := by
  cases h with
  | @window _ w last _ ks' _ h1 h2 h3 h4 h5 =>
    refine ⟨w, ks', last, rfl, fun k hk => by simpa using h1 k hk, by simpa using h2, fun p x hp hpos => ?_⟩
    have e := h4 p x hp
    rw [sub_zero] at e h2
    have hns : (nsites : K) ≠ 0 := by exact_mod_cast hn
    have hx : x ≠ 0 := by
      rintro rfl
      rw [zero_mul, zero_mul] at e
      have : ((w ++ [last]).countP fun k => k.picked = p) = 0 := by exact_mod_cast e.symm
      omega
    constructor
    · intro h
      rw [← e] at h
      have h' := mul_right_cancel₀ hns h
      have h' := mul_left_cancel₀ hx h'
      linarith
    · rintro rfl
      rw [sub_zero]; exact e

end Tof

example := C55_lost_iff (K := ℚ) 2 3 1 (by decide) (by decide) [⟨1, 1 / 2, 0⟩, ⟨2, 2, 1⟩, ⟨3, 4, 1⟩, ⟨4, 9 / 2, 0⟩] (by simp)

theorem exWindow : ∃ f recs, Windowed (K := ℚ) 2 3 1 0 [⟨1, 1 / 2, 0⟩, ⟨2, 2, 1⟩] ((0, f) :: recs) := by
  obtain ⟨s, recs, h, hw⟩ := C55_windows_partial (K := ℚ) 2 3 1 (by decide) (by decide) [⟨1, 1 / 2, 0⟩, ⟨2, 2, 1⟩] (by simp)
  have : TofState.run (K := ℚ) 2 3 1 (TofState.init 2) [⟨1, 1 / 2, 0⟩, ⟨2, 2, 1⟩]
      = .ok (⟨[0, 0], 2⟩, [(0, [1 / 6, 1 / 6])]) := by decide +kernel
  rw [this] at h
  have e := (Prod.mk.inj (Except.ok.inj h)).2
  rw [← e] at hw
  exact ⟨_, _, hw⟩

example (t0 : ℚ) : ∃ f recs, Windowed (K := ℚ) 2 3 1 0 [⟨1, 1 / 2, 0⟩, ⟨2, 2, 1⟩] ((0, f) :: recs) ∧
    ∃ (w ks' : List (KStep ℚ)) (last : KStep ℚ), [⟨1, 1 / 2, 0⟩, ⟨2, 2, 1⟩] = w ++ last :: ks' ∧ (∀ k ∈ w, k.time ≤ 1) ∧ 1 < last.time ∧
      ∀ (p : Nat) (x : ℚ), f[p]? = some x → 0 < ((w ++ [last]).countP fun k => k.picked = p) →
        (x * (last.time - t0) * (3 : Int) = ((w ++ [last]).countP fun k => k.picked = p : Nat) ↔ t0 = 0) := by
  obtain ⟨f, recs, h⟩ := exWindow
  exact ⟨f, recs, h, C55_start_iff 2 3 1 t0 (by decide) _ _ _ _ h⟩

/-! ## C56 -/

/-- With non-negative rates and a total that is not zero, the probabilities of the table add up to
one exactly when every process without a label has no available site or no rate. -/
theorem C56_sum_iff [Field K] [LinearOrder K] [IsStrictOrderedRing K] (mapping : List Str) (sites : List Nat) (rates : List K)
    (hr : ∀ r ∈ rates, 0 ≤ r)
    (ht : (List.zipWith (fun (n : Nat) r => (n : K) * r) sites rates).sum ≠ 0) :
    ∃ table, interactionsTable mapping sites rates = .ok table ∧
      ((table.map (·.prob)).sum = 1 ↔ ∀ (i : Nat) (n : Nat) (r : K), mapping.length ≤ i → sites[i]? = some n → rates[i]? = some r → n = 0 ∨ r = 0) := by
  unfold interactionsTable
  dsimp only
  rw [if_neg (fun h => ht h.1)]
  refine ⟨_, rfl, ?_⟩
  set total := List.zipWith (fun (n : Nat) r => (n : K) * r) sites rates with htot
  have hnn : ∀ x ∈ total, 0 ≤ x := by
    intro x hx
    rw [htot, List.mem_iff_getElem?] at hx
    obtain ⟨i, hi⟩ := hx
    rw [List.getElem?_zipWith] at hi
    cases h1 : sites[i]? with
    | none => rw [h1] at hi; exact nomatch hi
    | some n =>
      cases h2 : rates[i]? with
      | none => rw [h1, h2] at hi; exact nomatch hi
      | some r =>
        rw [h1, h2] at hi
        have : (n : K) * r = x := by simpa using hi
        rw [← this]
        exact mul_nonneg (Nat.cast_nonneg n) (hr r (List.mem_of_getElem? h2))
  have hlen : total.length ≤ sites.length := by rw [htot, List.length_zipWith]; omega
  have hprob : (((mapping.zip (sites.zip (total.zip (total.map (· / total.sum))))).zipIdx.map fun p =>
      (⟨p.2, p.1.1, p.1.2.1, p.1.2.2.1, p.1.2.2.2⟩ : EventRow K)).map (·.prob)) = (total.take mapping.length).map (· / total.sum) := by
    apply List.ext_getElem?
    intro i
    simp only [List.map_map, List.getElem?_map, List.getElem?_zipIdx, List.getElem?_take, Option.map_map]
    by_cases hm : i < mapping.length
    · rw [if_pos hm]
      by_cases hs : i < total.length
      · have hs' : i < sites.length := lt_of_lt_of_le hs hlen
        rw [List.getElem?_eq_getElem (by simp; omega), List.getElem?_eq_getElem hs]
        simp [Function.comp]
      · rw [List.getElem?_eq_none (by simp; omega), List.getElem?_eq_none (by omega)]
        rfl
    · rw [if_neg hm, List.getElem?_eq_none (by simp; omega)]
      rfl
  rw [hprob]
  have hsum : ∀ l : List K, (l.map (· / total.sum)).sum = l.sum / total.sum := by
    intro l
    induction l with
    | nil => simp
    | cons x l ih => simp [ih, add_div]
  rw [hsum, div_eq_one_iff_eq ht]
  have hsplit : (total.take mapping.length).sum + (total.drop mapping.length).sum = total.sum := by
    rw [← List.sum_append, List.take_append_drop]
  have hz : (total.take mapping.length).sum = total.sum ↔ (total.drop mapping.length).sum = 0 := by
    constructor <;> intro h <;> linarith
  rw [hz]
  have hall : (total.drop mapping.length).sum = 0 ↔ ∀ x ∈ total.drop mapping.length, x = 0 := by
    constructor
    · intro h x hx
      have h1 := List.single_le_sum (fun y hy => hnn y (List.mem_of_mem_drop hy)) x hx
      have h2 := hnn x (List.mem_of_mem_drop hx)
      rw [h] at h1
      exact le_antisymm h1 h2
    · intro h
      exact List.sum_eq_zero h
  rw [hall]
  constructor
  · intro h i n r hi h1 h2
    have hx : total[i]? = some ((n : K) * r) := by rw [htot, List.getElem?_zipWith, h1, h2]
    have := h ((n : K) * r) (List.mem_iff_getElem?.mpr ⟨i - mapping.length, by
      rw [List.getElem?_drop, show mapping.length + (i - mapping.length) = i by omega]; exact hx⟩)
    rcases mul_eq_zero.mp this with h | h
    · exact Or.inl (by exact_mod_cast h)
    · exact Or.inr h
  · intro h x hx
    obtain ⟨i, hi⟩ := List.mem_iff_getElem?.mp hx
    rw [List.getElem?_drop, htot, List.getElem?_zipWith] at hi
    cases h1 : sites[mapping.length + i]? with
    | none => rw [h1] at hi; exact nomatch hi
    | some n =>
      cases h2 : rates[mapping.length + i]? with
      | none => rw [h1, h2] at hi; exact nomatch hi
      | some r =>
        rw [h1, h2] at hi
        have e : (n : K) * r = x := by simpa using hi
        rcases h _ n r (by omega) h1 h2 with h | h
        · rw [← e, h]; simp
        · rw [← e, h]; simp

example := C56_sum_iff [str! "a(->)"] [3, 1] [(1 : ℚ), 2] (by decide +kernel) (by decide +kernel)
example := C56_sum_iff [str! "a(->)"] [3, 0] [(1 : ℚ), 2] (by decide +kernel) (by decide +kernel)

end Verif
