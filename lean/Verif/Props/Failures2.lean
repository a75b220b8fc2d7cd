import Verif.Props.Descriptors
import Verif.Props.Energy
import Verif.Props.Archive
import Verif.Props.KmcRun
import Verif.Props.Symbolic
import Verif.Props.Load
import Verif.Props.PlotTof
import Verif.Props.PlotCoverages
import Verif.Props.PlotTraj
import Verif.Props.PlotProc
/- Which errors end the methods and scripts with inputs that do not fit (C13, C36, C63, C71, C81, C100, C107, C110, C111), and the cache of rate constants with
few assumptions on hashes (C40). -/
namespace Verif
open Dict

/-! ## C40 -/

section
variable {E R : Type} [DecidableEq E] (H : E → Int) (fresh : E → Py R)

/-- The energies objects, in the order they were made, with their present contents. -/
def heapStep (objs : List E) : HashOp E → List E
  | .make e => objs ++ [e]
  | .change r e => objs.set r e
  | .ask _ => objs

/-- All objects at the end of a history. -/
def heapOf : List (HashOp E) → List E := List.foldl heapStep []

/-- At some time of the history object `k` had the contents `e`. -/
def Held (ops : List (HashOp E)) (k : Nat) (e : E) : Prop := ∃ pre, pre <+: ops ∧ (heapOf pre)[k]? = some e

theorem hash_run (ops : List (HashOp E)) : (ops.foldl (HashMemo.step H fresh) ⟨[], []⟩).objs = heapOf ops ∧
    ∀ t ∈ (ops.foldl (HashMemo.step H fresh) ⟨[], []⟩).entries, ∃ e, Held ops t.ref e ∧ H e = t.hash ∧ fresh e = .ok t.result := by
  induction ops using List.reverseRecOn with
  | nil => exact ⟨rfl, fun t ht => nomatch ht⟩
  | append_singleton ops op ih =>
    obtain ⟨h1, h2⟩ := ih
    have mono : ∀ {k e}, Held ops k e → Held (ops ++ [op]) k e := fun ⟨pre, hp, h⟩ => ⟨pre, hp.trans (List.prefix_append _ _), h⟩
    rw [List.foldl_append, List.foldl_cons, List.foldl_nil]
    generalize ops.foldl (HashMemo.step H fresh) ⟨[], []⟩ = m at h1 h2
    have hh : heapOf (ops ++ [op]) = heapStep (heapOf ops) op := by
      unfold heapOf
      rw [List.foldl_append]
      rfl
    have h2' : ∀ t ∈ m.entries, ∃ e, Held (ops ++ [op]) t.ref e ∧ H e = t.hash ∧ fresh e = .ok t.result := fun t ht => by
      obtain ⟨e, q, r⟩ := h2 t ht
      exact ⟨e, mono q, r⟩
    cases op with
    | make e => exact ⟨by rw [hh, ← h1]; rfl, h2'⟩
    | change r e => exact ⟨by rw [hh, ← h1]; rfl, h2'⟩
    | ask r =>
      unfold HashMemo.step HashMemo.call
      dsimp only
      split
      · exact ⟨by rw [hh]; exact h1, h2'⟩
      · rename_i e he
        split
        · exact ⟨by rw [hh]; exact h1, h2'⟩
        · split
          · rename_i v hv
            refine ⟨by rw [hh]; exact h1, fun t ht => ?_⟩
            rcases List.mem_append.mp ht with ht | ht
            · exact h2' t ht
            · rw [List.mem_singleton] at ht
              subst ht
              exact ⟨e, mono ⟨ops, List.prefix_rfl, by rw [← h1]; exact he⟩, rfl, hv⟩
          · exact ⟨by rw [hh]; exact h1, h2'⟩

/-- **C40** (partial) After any history of making energies, changing them in place and asking, rate constants are those of the
present energies, provided no single object has had two different contents with the same hash; different objects may share hashes. Missing: such
objects (`C40_in_place_refuted`). -/
theorem C40_objects_partial (ops : List (HashOp E)) (hH : ∀ k e e', Held ops k e → Held ops k e' → H e = H e' → e = e') (r : Nat) (e : E)
    (hr : (heapOf ops)[r]? = some e) : ((ops.foldl (HashMemo.step H fresh) ⟨[], []⟩).call H fresh r).1 = fresh e := by
  obtain ⟨h1, h2⟩ := hash_run H fresh ops
  generalize ops.foldl (HashMemo.step H fresh) ⟨[], []⟩ = m at h1 h2
  unfold HashMemo.call
  rw [h1, hr]
  dsimp only
  cases hf : m.find H r e with
  | some v =>
    unfold HashMemo.find at hf
    obtain ⟨t, ht, hv⟩ := Option.map_eq_some_iff.mp hf
    have hp := List.find?_some ht
    have hm := List.mem_of_find?_eq_some ht
    rw [decide_eq_true_eq] at hp
    obtain ⟨e0, q1, q2, q3⟩ := h2 t hm
    have hnow : Held ops t.ref e := by
      rcases hp.2 with h | h
      · exact ⟨ops, List.prefix_rfl, by rw [h]; exact hr⟩
      · exact ⟨ops, List.prefix_rfl, by rw [← h1]; exact h⟩
    have : e0 = e := hH _ _ _ q1 hnow (q2.trans hp.1)
    rw [← this, q3, hv]
  | none =>
    dsimp only
    cases fresh e <;> rfl

/-- **C40** A second question about an object that was not changed does not compute again. -/
theorem C40_repeat (m m' : HashMemo E R) (r : Nat) (v : R) (h : m.call H fresh r = (.ok v, m')) (fresh' : E → Py R) :
    ∃ w, m'.call H fresh' r = (.ok w, m') := by
  unfold HashMemo.call at h
  cases he : m.objs[r]? with
  | none => rw [he] at h; cases h
  | some e =>
    rw [he] at h
    dsimp only at h
    cases hf : m.find H r e with
    | some w =>
      rw [hf] at h
      cases h
      refine ⟨v, ?_⟩
      unfold HashMemo.call
      rw [he]
      dsimp only
      rw [hf]
    | none =>
      rw [hf] at h
      dsimp only at h
      cases hv : fresh e with
      | error x => rw [hv] at h; cases h
      | ok v0 =>
        rw [hv] at h
        cases h
        have : ∃ w, HashMemo.find H (⟨m.objs, m.entries ++ [⟨H e, r, v⟩]⟩ : HashMemo E R) r e = some w := by
          unfold HashMemo.find
          have : ((m.entries ++ [(⟨H e, r, v⟩ : HashEntry R)]).find? fun t => decide (t.hash = H e ∧ (t.ref = r ∨ m.objs[t.ref]? = some e))).isSome := by
            rw [List.find?_isSome]
            exact ⟨_, List.mem_append_right _ (List.mem_singleton.mpr rfl), by simp⟩
          obtain ⟨t, ht⟩ := Option.isSome_iff_exists.mp this
          exact ⟨t.result, by rw [ht]; rfl⟩
        obtain ⟨w, hw⟩ := this
        refine ⟨w, ?_⟩
        unfold HashMemo.call
        rw [he]
        dsimp only
        rw [hw]

end

-- Two objects with the same hash and different contents are kept apart.
example : ((([HashOp.make 1, .make (-1), .ask 0, .ask 1] : List (HashOp Int)).foldl (HashMemo.step (fun e => e * e) (fun e => .ok e)) ⟨[], []⟩).call
    (fun e => e * e) (fun e => .ok e) 1).1 = (.ok (-1) : Py Int) := by decide

/-! ## C13 -/

/-- **C13** What happens to relative energies that cannot be taken: without a file and an argument it is an error of input, with a wrong number of values a
value error, without one of the two lists a key error; what was known before stays. -/
theorem C13_failing {K : Type} [Field K] [LinearOrder K] (n : Nat) (file arg : Option (RelData K)) (o : EnergyState K) :
    (file = none → arg = none → parseRelative n file arg o = (o, .error .IOError)) ∧
    ∀ d, file.or arg = some d →
      ((∃ l, (d.ga = some l ∨ d.dg = some l) ∧ l.length ≠ n) → parseRelative n file arg o = (o, .error .ValueError)) ∧
      ((∀ l, d.ga = some l ∨ d.dg = some l → l.length = n) → d.ga = none ∨ d.dg = none → parseRelative n file arg o = (o, .error .KeyError)) := by
  refine ⟨fun h1 h2 => by subst h1 h2; rfl, fun d hd => ⟨?_, ?_⟩⟩
  · rintro ⟨l, hl, hn⟩
    unfold parseRelative
    rw [hd]
    have : checkRelData n d = .error .ValueError := by
      unfold checkRelData
      rcases hl with h | h
      · rw [h, if_pos (by simpa using hn)]
      · rw [h]
        have hn' : (l.length != n) = true := by simpa using hn
        cases d.ga with
        | none => exact if_pos hn'
        | some l' =>
          by_cases h' : (l'.length != n) = true
          · exact if_pos h'
          · exact (if_neg h').trans (if_pos hn')
    dsimp only
    rw [this]
  · intro hl hm
    unfold parseRelative
    rw [hd]
    have : checkRelData n d = .ok () := by
      unfold checkRelData
      rw [if_neg, if_neg]
      · cases h : d.dg with
        | none => simp
        | some l => simp [hl l (.inr h)]
      · cases h : d.ga with
        | none => simp
        | some l => simp [hl l (.inl h)]
    dsimp only
    rw [this]
    have e : relFromData d = .error .KeyError := by
      unfold relFromData
      rcases hm with h | h
      · rw [h]
      · rw [h]
        cases d.ga <;> rfl
    dsimp only
    rw [e]

example : parseRelative (K := ℚ) 1 (some ⟨some [1], none⟩) none ⟨none, none⟩ = (⟨none, none⟩, .error .KeyError) :=
  ((C13_failing (K := ℚ) 1 (some ⟨some [1], none⟩) none ⟨none, none⟩).2 _ rfl).2 (by simp) (.inr rfl)

/-! ## C37 -/

/-- **C37** Coverages to start from that are of a wrong number, or no list, end a run at once, whatever is archived and asked for. An empty list counts as none given. -/
theorem C37_given {V A β : Type} (ld : List β → Py (Dict Str A)) (nads : Nat) (fsolve coarse : Bool) (file : FileContent β) :
    runPlan (V := V) ld nads .other fsolve coarse file = .error .ParameterError ∧
    (∀ l : List V, l ≠ [] → l.length ≠ nads → runPlan ld nads (.seq l) fsolve coarse file = .error .ParameterError) ∧
    (∀ l : List V, l ≠ [] → l.length = nads → ∃ p, runPlan ld nads (.seq l) fsolve coarse file = .ok p ∧
      p = if fsolve then .fsolve (.given l) else if coarse then .coarseFirst (.given l) else .direct (.given l)) ∧
    runPlan (V := V) ld nads (.seq []) fsolve coarse file = runPlan ld nads .none fsolve coarse file := by
  refine ⟨rfl, ?_, ?_, rfl⟩
  · intro l hl hn
    cases l with
    | nil => exact absurd rfl hl
    | cons x l =>
      unfold runPlan chooseStart
      dsimp only
      rw [if_pos hn]
      rfl
  · intro l hl hn
    cases l with
    | nil => exact absurd rfl hl
    | cons x l =>
      unfold runPlan chooseStart
      dsimp only
      rw [if_neg (not_not.mpr hn)]
      cases fsolve <;> cases coarse <;> exact ⟨_, rfl, rfl⟩

/-- **C37** A high-precision search from the coarse solution, or a low-precision one, cannot start without coverages and without an archive. -/
theorem C37_nothing {V A β : Type} (ld : List β → Py (Dict Str A)) (nads : Nat) (fsolve coarse : Bool) :
    runPlan (V := V) ld nads .none fsolve coarse none = if fsolve ∨ coarse then .error .TypeError else .ok (.direct .nothing) := by
  cases fsolve <;> cases coarse <;> rfl

example : runPlan (V := ℚ) (A := Nat) (fun _ : List Char => .error .SyntaxError) 2 (.seq [1]) true true (some []) = .error .ParameterError :=
  (C37_given _ 2 true true (some [])).2.1 [1] (by simp) (by simp)

/-! ## C63 -/

/-- **C63** A setup with a solver that is none of the known ones ends with a value error, after everything else was accepted. -/
theorem C63_solver (attrs : Dict Str AttrKind) (cls : Str) (a : LoadAttrs) (inst : Dict Str PyVal) (setup : Dict Str PyVal) (v : PyVal)
    (hv : get? setup (str! "solver") = some v) (hs : ∀ s, v = .str s → s ∉ a.solvers) (m : Loaded) : load attrs cls a inst setup ≠ .ok m ∧
      ∀ i j texts n, loadLoop attrs cls inst setup = .ok i → setParser cls a.parsers i setup = .ok j → exprTexts (descrGet cls a.exprs j).1 = .ok texts →
        parseExprs (descrGet cls a.exprs j).2 texts = .ok n → load attrs cls a inst setup = .error .ValueError := by
  have key : ∀ n, setSolver cls a n (some v) = .error .ValueError := by
    intro n
    unfold setSolver
    split
    · rename_i h; cases h
    · rename_i h
      rw [if_neg (hs _ (Option.some.inj h))]
    · rfl
  refine ⟨fun h => ?_, fun i j texts n h1 h2 h3 h4 => ?_⟩
  · unfold load at h
    obtain ⟨i1, -, h⟩ := bind_ok.mp h
    obtain ⟨i2, -, h⟩ := bind_ok.mp h
    obtain ⟨texts, -, h⟩ := bind_ok.mp h
    obtain ⟨m1, -, h⟩ := bind_ok.mp h
    rw [hv, key] at h
    cases h
  · unfold load
    rw [h1]
    show (setParser cls a.parsers i setup >>= _) = _
    rw [h2]
    show (exprTexts _ >>= _) = _
    rw [h3]
    show (parseExprs _ _ >>= _) = _
    rw [h4]
    show setSolver _ _ _ _ = _
    rw [hv, key]

/-! ## C71 -/

/-- **C71** Without free sites known, nothing can be put in for the symbols. -/
theorem C71_unready {K : Type} [Field K] [DecidableEq K] (s : SymSolver K) (h : s.free = none) (ex : K → K) (cvgs : List K) :
    getSubsDict s cvgs = .error .AttributeError ∧ rateConstantsBySym ex s = .error .AttributeError := by
  constructor
  · unfold getSubsDict
    rw [h]
    rfl
  · unfold rateConstantsBySym
    rw [h]
    rfl

/-! ## C81 -/

/-- The model shows nothing. -/
def NothingShown {K C : Type} (st : KmcState K C) : Prop := st.procs = none ∧ st.mappingKnown = false

theorem getProcesses_shown {K C : Type} (s : KmcSettings) (st : KmcState K C) (h : NothingShown st) : NothingShown (st.getProcesses s).2 := by
  unfold KmcState.getProcesses
  split <;> exact h

theorem processes_shown {K C : Type} (s : KmcSettings) (st : KmcState K C) (h : NothingShown st) : NothingShown (st.processes s).2 := by
  unfold KmcState.processes
  split
  · exact h
  · have := getProcesses_shown s st h
    split
    · rename_i e; rw [e] at this; exact this
    · rename_i e; rw [e] at this; exact this

theorem solverRun_shown {K C : Type} (s : KmcSettings) (ma sc : Bool) (t : Str) (e : Py Unit) (st : KmcState K C) (h : NothingShown st) :
    NothingShown (st.solverRun s ma sc t e).2 := by
  unfold KmcState.solverRun
  split
  · exact h
  · have := processes_shown s st h
    split
    · rename_i q; rw [q] at this; exact this
    · rename_i q
      rw [q] at this
      split
      · dsimp only
        split <;> exact this
      · exact this

/-- **C81** As long as the model is not run, it shows neither processes nor their reactions, however often it reads data, asks for processes or runs its solver; and its solver cannot be run
with an analysis of frequencies or turnover frequencies. -/
theorem C81_fresh {K C : Type} (s : KmcSettings) (ops : List (KmcOp K C)) (h : ∀ op ∈ ops, ∀ ma sc t e, op ≠ .run ma sc t e) :
    (KmcState.init.steps s ops).view = (.error .AttributeError, .error .AttributeError) ∧
    ((str! "FrequencyAnalysis" ∈ s.analysis ∨ str! "TOFAnalysis" ∈ s.analysis) → ∀ ma sc t e u,
      ((KmcState.init.steps s ops).solverRun s ma sc t e).1 ≠ .ok u) := by
  have key : ∀ (ops : List (KmcOp K C)) (st : KmcState K C), NothingShown st → (∀ op ∈ ops, ∀ ma sc t e, op ≠ .run ma sc t e) → NothingShown (st.steps s ops) := by
    intro ops
    induction ops with
    | nil => exact fun st h _ => h
    | cons op ops ih =>
      intro st hs hr
      rw [List.forall_mem_cons] at hr
      refine ih _ ?_ hr.2
      cases op with
      | parse en pf cf sf =>
        show NothingShown (st.parse s en pf cf sf).2
        unfold KmcState.parse
        split
        · exact hs
        · dsimp only
          split <;> exact hs
      | processes => exact processes_shown s st hs
      | getProcesses => exact getProcesses_shown s st hs
      | solverRun ma sc t e => exact solverRun_shown s ma sc t e st hs
      | run ma sc t e => exact absurd rfl (hr.1 ma sc t e)
  obtain ⟨h1, h2⟩ := key ops KmcState.init ⟨rfl, rfl⟩ h
  generalize KmcState.init.steps s ops = st at h1 h2
  constructor
  · unfold KmcState.view
    rw [h1, h2]
    rfl
  · intro hn ma sc t e u hu
    unfold KmcState.solverRun at hu
    cases ha : analysisObjects s st with
    | error x => rw [ha] at hu; exact nomatch hu
    | ok an =>
      unfold analysisObjects at ha
      by_cases hs : s.analysis = []
      · rw [hs] at hn; rcases hn with h | h <;> cases h
      rw [if_neg hs] at ha
      cases hm : s.analysis.mapM (makeAnalysis st) with
      | error x => rw [hm] at ha; exact nomatch ha
      | ok l =>
        have bad : ∀ n, n = str! "FrequencyAnalysis" ∨ n = str! "TOFAnalysis" → n ∈ s.analysis → False := by
          intro n hn hmem
          obtain ⟨y, -, hy⟩ := (mapM_ok_mem hm).2 n hmem
          unfold makeAnalysis at hy
          rw [if_pos hn, h1] at hy
          cases hy
        rcases hn with h | h
        · exact bad _ (.inl rfl) h
        · exact bad _ (.inr rfl) h

example (s : KmcSettings) (r : Str → Py (ℚ × ℚ)) : (KmcState.init.steps s [.parse (.ok r) (.data ([] : List (ProcDict ℚ))) .missing .missing, .processes, .getProcesses]).view =
    (.error .AttributeError, .error .AttributeError) := (C81_fresh s _ (by simp)).1

/-! ## C100 -/

/-- **C100** Which entries of a file of rates raise: a short row, a number instead of a row, a text. -/
theorem C100_entries {K : Type} (i : Nat) :
    (∀ l : List K, l.length ≤ i → rateAt (.nums l) i = .error .IndexError) ∧
    (∀ x : K, rateAt (.num x) i = .error .TypeError) ∧
    (∀ s : Str, rateAt (K := K) (.str s) i = .error (if i < s.length then .TypeError else .IndexError)) := by
  refine ⟨fun l h => ?_, fun x => rfl, fun s => ?_⟩
  · unfold rateAt
    dsimp only
    rw [List.getElem?_eq_none h]
  · unfold rateAt
    dsimp only
    split <;> rfl

/-! ## C107 -/

section
variable {K : Type} [Field K]

/-- Every entry is a number. -/
def AllNums (l : List (Elem K)) : Prop := ∀ e ∈ l, ∃ x, e = .num x

/-- What can be added to a curve of `n` points. -/
def FitsCurve (n : Nat) (e : Elem K) : Prop := (∃ x, e = .num x) ∨ ∃ l, e = .nums l ∧ (l.length = n ∨ l.length = 1)

/-- A type whose coverages go into a curve. -/
def CurveType (s : Str) : Prop := str! "O" <+: s ∨ str! "C" <+: s ∨ str! "V" <+: s

omit [Field K] in
theorem numsOf_iff (l : List (Elem K)) : (∃ s, numsOf l = .ok s) ↔ AllNums l := by
  constructor
  · rintro ⟨s, h⟩ e he
    obtain ⟨x, hx⟩ := (mapM_ok_mem h).2 e he
    cases e with
    | num x => exact ⟨x, rfl⟩
    | nums l => cases hx.2
    | str l => cases hx.2
  · intro h
    unfold numsOf
    exact mapM_ok_exists fun e he => by obtain ⟨x, rfl⟩ := h e he; exact ⟨x, rfl⟩

theorem addCurve_iff (a : List K) (e : Elem K) : ((∃ r, addCurve a e = .ok r) ↔ FitsCurve a.length e) ∧
    ∀ r, addCurve a e = .ok r → r.length = a.length := by
  cases e with
  | num x => exact ⟨⟨fun _ => .inl ⟨x, rfl⟩, fun _ => ⟨_, rfl⟩⟩, fun r h => by cases h; simp⟩
  | str s =>
    refine ⟨⟨(fun ⟨r, h⟩ => nomatch h), ?_⟩, (fun r h => nomatch h)⟩
    rintro (⟨x, h⟩ | ⟨l, h, -⟩) <;> cases h
  | nums l =>
    unfold addCurve
    dsimp only
    by_cases hl : l.length = a.length
    · rw [if_pos hl]
      exact ⟨⟨fun _ => .inr ⟨l, rfl, .inl hl⟩, fun _ => ⟨_, rfl⟩⟩, fun r h => by cases h; simp [hl]⟩
    · rw [if_neg hl]
      split
      · exact ⟨⟨fun _ => .inr ⟨_, rfl, .inr rfl⟩, fun _ => ⟨_, rfl⟩⟩, fun r h => by cases h; simp⟩
      · rename_i hne
        refine ⟨⟨(fun ⟨r, h⟩ => nomatch h), ?_⟩, (fun r h => nomatch h)⟩
        rintro (⟨x, h⟩ | ⟨l', h, h1 | h1⟩)
        · cases h
        · cases h; exact absurd h1 hl
        · cases h
          obtain ⟨x, hx⟩ := List.length_eq_one_iff.mp h1
          exact absurd hx (hne x)

theorem mergeType_iff (n : Nat) (m : Merged K) (h1 : m.co.length = n) (h2 : m.o.length = n) (h3 : m.vac.length = n) (s : Str) (e : Elem K) :
    ((∃ r, mergeType m s e = .ok r) ↔ (CurveType s → FitsCurve n e)) ∧
    ∀ r, mergeType m s e = .ok r → r.co.length = n ∧ r.o.length = n ∧ r.vac.length = n := by
  have main : ∀ (c : List K) (g : List K → Merged K), c.length = n → (∀ r, r.length = n → (g r).co.length = n ∧ (g r).o.length = n ∧ (g r).vac.length = n) →
      ((∃ r, (do pure (g (← addCurve c e)) : Py (Merged K)) = .ok r) ↔ FitsCurve n e) ∧
      ∀ r, (do pure (g (← addCurve c e)) : Py (Merged K)) = .ok r → r.co.length = n ∧ r.o.length = n ∧ r.vac.length = n := by
    intro c g hc hg
    obtain ⟨a1, a2⟩ := addCurve_iff c e
    rw [hc] at a1 a2
    refine ⟨⟨fun ⟨r, h⟩ => ?_, fun h => ?_⟩, fun r h => ?_⟩
    · obtain ⟨x, hx, -⟩ := bind_ok.mp h
      exact a1.mp ⟨x, hx⟩
    · obtain ⟨x, hx⟩ := a1.mpr h
      exact ⟨g x, bind_ok.mpr ⟨x, hx, rfl⟩⟩
    · obtain ⟨x, hx, h⟩ := bind_ok.mp h
      cases h
      exact hg x (a2 x hx)
  unfold mergeType CurveType
  by_cases hO : str! "O" <+: s
  · rw [if_pos hO]
    obtain ⟨q1, q2⟩ := main m.o (fun x => { m with o := x }) h2 (fun r hr => ⟨h1, hr, h3⟩)
    exact ⟨q1.trans ⟨fun h _ => h, fun h => h (.inl hO)⟩, q2⟩
  rw [if_neg hO]
  by_cases hC : str! "C" <+: s
  · rw [if_pos hC]
    obtain ⟨q1, q2⟩ := main m.co (fun x => { m with co := x }) h1 (fun r hr => ⟨hr, h2, h3⟩)
    exact ⟨q1.trans ⟨fun h _ => h, fun h => h (.inr (.inl hC))⟩, q2⟩
  rw [if_neg hC]
  by_cases hV : str! "V" <+: s
  · rw [if_pos hV]
    obtain ⟨q1, q2⟩ := main m.vac (fun x => { m with vac := x }) h3 (fun r hr => ⟨h1, h2, hr⟩)
    exact ⟨q1.trans ⟨fun h _ => h, fun h => h (.inr (.inr hV))⟩, q2⟩
  · rw [if_neg hV]
    exact ⟨⟨fun _ h => absurd h (by tauto), fun _ => ⟨m, rfl⟩⟩, fun r h => by cases h; exact ⟨h1, h2, h3⟩⟩

theorem mergeLoop_iff (n : Nat) (l : List (Elem K × Elem K)) : ∀ m : Merged K, m.co.length = n → m.o.length = n → m.vac.length = n →
    ((∃ r, mergeLoop m l = .ok r) ↔ ∀ p ∈ l, ∃ s, p.1 = .str s ∧ (CurveType s → FitsCurve n p.2)) := by
  induction l with
  | nil => exact fun m _ _ _ => ⟨(fun _ p hp => nomatch hp), fun _ => ⟨m, rfl⟩⟩
  | cons p l ih =>
    intro m h1 h2 h3
    obtain ⟨sp, cv⟩ := p
    unfold mergeLoop
    rw [List.forall_mem_cons]
    constructor
    · rintro ⟨r, h⟩
      obtain ⟨s, hs, h⟩ := bind_ok.mp h
      obtain ⟨m', hm, h2'⟩ := bind_ok.mp h
      cases sp with
      | num x => cases hs
      | nums x => cases hs
      | str s' =>
        cases hs
        obtain ⟨q1, q2⟩ := mergeType_iff n m h1 h2 h3 s cv
        obtain ⟨a, b, c⟩ := q2 m' hm
        exact ⟨⟨s, rfl, q1.mp ⟨m', hm⟩⟩, (ih m' a b c).mp ⟨r, h2'⟩⟩
    · rintro ⟨⟨s, hs, hf⟩, hr⟩
      dsimp only at hs
      subst hs
      obtain ⟨q1, q2⟩ := mergeType_iff n m h1 h2 h3 s cv
      obtain ⟨m', hm⟩ := q1.mpr hf
      obtain ⟨a, b, c⟩ := q2 m' hm
      obtain ⟨r, h⟩ := (ih m' a b c).mpr hr
      exact ⟨r, bind_ok.mpr ⟨s, rfl, bind_ok.mpr ⟨m', hm, h⟩⟩⟩

/-- **C107** For which files of coverages of a lattice run the figure is drawn: the four lists are there, every label is a text, everything added to a curve is a number, a list of one
number or a list of one number for every step, steps and times are numbers, there is a step, and there are as many times as steps. -/
theorem C107_succeeds (file : List (Stmt K)) : (∃ r, plotMerged file = .ok r) ↔
    ∃ env times steps coverages types, execFile file = .ok env ∧ get? env (str! "times") = some times ∧ get? env (str! "steps") = some steps ∧
      get? env (str! "coverages") = some coverages ∧ get? env (str! "possible_types") = some types ∧
      (∀ p ∈ types.zip coverages, ∃ s, p.1 = .str s ∧ (CurveType s → FitsCurve steps.length p.2)) ∧
      AllNums steps ∧ steps ≠ [] ∧ AllNums times ∧ times.length = steps.length := by
  have lv : ∀ (env : Vars K) v l, localVar env v = .ok l ↔ get? env v = some l := by
    intro env v l
    unfold localVar
    cases get? env v with
    | none => exact ⟨(fun h => nomatch h), (fun h => nomatch h)⟩
    | some x => exact ⟨fun h => congrArg some (Except.ok.inj h), fun h => congrArg Except.ok (Option.some.inj h)⟩
  have nl : ∀ (l : List (Elem K)) s, numsOf l = .ok s → s.length = l.length := fun l s h => (mapM_ok_inv h).1
  constructor
  · rintro ⟨r, h⟩
    unfold plotMerged at h
    obtain ⟨env, he, h⟩ := bind_ok.mp h
    obtain ⟨times, ht, h⟩ := bind_ok.mp h
    obtain ⟨steps, hs, h⟩ := bind_ok.mp h
    obtain ⟨cov, hc, h⟩ := bind_ok.mp h
    obtain ⟨types, hy, h⟩ := bind_ok.mp h
    obtain ⟨m, hm, h⟩ := bind_ok.mp h
    obtain ⟨s, h1, h⟩ := bind_ok.mp h
    split at h
    · cases h
    rename_i hne
    obtain ⟨t, h2, h⟩ := bind_ok.mp h
    split at h
    · cases h
    rename_i hlen
    have e1 := nl _ _ h1
    have e2 := nl _ _ h2
    refine ⟨env, times, steps, cov, types, he, (lv _ _ _).mp ht, (lv _ _ _).mp hs, (lv _ _ _).mp hc, (lv _ _ _).mp hy,
      (mergeLoop_iff steps.length _ _ (by simp) (by simp) (by simp)).mp ⟨m, hm⟩, (numsOf_iff _).mp ⟨s, h1⟩, ?_, (numsOf_iff _).mp ⟨t, h2⟩, ?_⟩
    · intro h; subst h; exact hne (List.length_eq_zero_iff.mp e1)
    · rw [← e1, ← e2]; exact not_not.mp hlen
  · rintro ⟨env, times, steps, cov, types, he, ht, hs, hc, hy, hz, k1, k2, k3, k4⟩
    obtain ⟨m, hm⟩ := (mergeLoop_iff steps.length (types.zip cov) ⟨List.replicate steps.length 0, List.replicate steps.length 0, List.replicate steps.length 0⟩
      (by simp) (by simp) (by simp)).mpr hz
    obtain ⟨s, h1⟩ := (numsOf_iff steps).mpr k1
    obtain ⟨t, h2⟩ := (numsOf_iff times).mpr k3
    have e1 := nl _ _ h1
    have e2 := nl _ _ h2
    refine ⟨(s, t, m, meanOf m.o, meanOf m.co), ?_⟩
    unfold plotMerged
    refine bind_ok.mpr ⟨env, he, bind_ok.mpr ⟨times, (lv _ _ _).mpr ht, bind_ok.mpr ⟨steps, (lv _ _ _).mpr hs, bind_ok.mpr ⟨cov, (lv _ _ _).mpr hc,
      bind_ok.mpr ⟨types, (lv _ _ _).mpr hy, bind_ok.mpr ⟨m, hm, bind_ok.mpr ⟨s, h1, ?_⟩⟩⟩⟩⟩⟩⟩
    rw [if_neg (by intro h; rw [h] at e1; exact k2 (List.length_eq_zero_iff.mp e1.symm))]
    refine bind_ok.mpr ⟨t, h2, ?_⟩
    rw [if_neg (by rw [e1, e2]; exact not_not.mpr k4)]
    rfl

/-- **C107** How files end that do not fit: a text as coverages is a type error, a list of coverages of a wrong length a value error, no steps an index error. -/
theorem C107_failing (a : List K) (s : Str) (l : List K) :
    addCurve a (.str s) = .error .TypeError ∧ (l.length ≠ a.length → l.length ≠ 1 → addCurve a (.nums l) = .error .ValueError) := by
  refine ⟨rfl, fun h1 h2 => ?_⟩
  unfold addCurve
  dsimp only
  rw [if_neg h1]
  split
  · exact absurd rfl h2
  · rfl

end

section
variable {K : Type} [Field K]

/-- **C107** A file without steps ends in an index error and one with another number of times than steps in a value error, if all else fits. -/
theorem C107_lengths (file : List (Stmt K)) (env : Vars K) (times steps coverages types : List (Elem K)) (he : execFile file = .ok env)
    (ht : get? env (str! "times") = some times) (hs : get? env (str! "steps") = some steps) (hc : get? env (str! "coverages") = some coverages)
    (hy : get? env (str! "possible_types") = some types)
    (hz : ∀ p ∈ types.zip coverages, ∃ s, p.1 = .str s ∧ (CurveType s → FitsCurve steps.length p.2)) :
    (steps = [] → plotMerged file = .error .IndexError) ∧
    (AllNums steps → AllNums times → steps ≠ [] → times.length ≠ steps.length → plotMerged file = .error .ValueError) ∧
    (¬ AllNums steps → plotMerged file = .error .ValueError) ∧
    (AllNums steps → steps ≠ [] → ¬ AllNums times → plotMerged file = .error .ValueError) := by
  have lv : ∀ v l, get? env v = some l → localVar env v = .ok l := by
    intro v l h
    unfold localVar
    rw [h]
  have nl : ∀ (l : List (Elem K)) s, numsOf l = .ok s → s.length = l.length := fun l s h => (mapM_ok_inv h).1
  have nerr : ∀ l : List (Elem K), ¬ AllNums l → numsOf l = .error .ValueError := by
    intro l h
    induction l with
    | nil => exact absurd (fun e he => nomatch he) h
    | cons e l ih =>
      unfold numsOf at ih ⊢
      rw [List.mapM_cons]
      cases e with
      | str s => rfl
      | nums s => rfl
      | num x =>
        rw [ih fun hl => h fun e he => by
          rcases List.mem_cons.mp he with rfl | he
          · exact ⟨x, rfl⟩
          · exact hl e he]
        rfl
  obtain ⟨m, hm⟩ := (mergeLoop_iff steps.length (types.zip coverages) ⟨List.replicate steps.length 0, List.replicate steps.length 0, List.replicate steps.length 0⟩
      (by simp) (by simp) (by simp)).mpr hz
  have main : plotMerged file = (do
      let s ← numsOf steps
      if s = [] then .error .IndexError else pure ()
      let t ← numsOf times
      if t.length ≠ s.length then .error .ValueError else pure ()
      pure (s, t, m, meanOf m.o, meanOf m.co)) := by
    unfold plotMerged
    rw [he]
    show (localVar env _ >>= _) = _
    rw [lv _ _ ht]
    show (localVar env _ >>= _) = _
    rw [lv _ _ hs]
    show (localVar env _ >>= _) = _
    rw [lv _ _ hc]
    show (localVar env _ >>= _) = _
    rw [lv _ _ hy]
    show (mergeLoop _ _ >>= _) = _
    rw [hm]
    rfl
  rw [main]
  refine ⟨fun h => by subst h; rfl, fun k1 k3 k2 k4 => ?_, fun h => by rw [nerr _ h]; rfl, fun k1 k2 h => ?_⟩
  · obtain ⟨s, h1⟩ := (numsOf_iff steps).mpr k1
    obtain ⟨t, h2⟩ := (numsOf_iff times).mpr k3
    have e1 := nl _ _ h1
    have e2 := nl _ _ h2
    rw [h1]
    show (if s = [] then _ else _) = _
    rw [if_neg (by intro h; rw [h] at e1; exact k2 (List.length_eq_zero_iff.mp e1.symm))]
    show (numsOf times >>= _) = _
    rw [h2]
    show (if t.length ≠ s.length then _ else _) = _
    rw [if_pos (by rw [e1, e2]; exact k4)]
    rfl
  · obtain ⟨s, h1⟩ := (numsOf_iff steps).mpr k1
    have e1 := nl _ _ h1
    rw [h1]
    show (if s = [] then _ else _) = _
    rw [if_neg (by intro h; rw [h] at e1; exact k2 (List.length_eq_zero_iff.mp e1.symm))]
    show (numsOf times >>= _) = _
    rw [nerr _ h]
    rfl

end

/-- **C100** A label that is no text has no `endswith`, whatever else is in the file. -/
theorem C100_labels {K : Type} [Field K] (production : Str) (file : List (Stmt K)) (env : Vars K) (rows times procs : List (Elem K)) (he : execFile file = .ok env)
    (hr : get? env (str! "tofs") = some rows) (ht : get? env (str! "times") = some times) (hp : get? env (str! "processes") = some procs)
    (h : ∃ e ∈ procs, ∀ s, e ≠ .str s) : plotTof production file = .error .AttributeError := by
  have lv : ∀ v l, get? env v = some l → localVar env v = .ok l := by
    intro v l h
    unfold localVar
    rw [h]
  have key : procs.mapM labelOf = .error .AttributeError := by
    clear hp
    induction procs with
    | nil => obtain ⟨e, h, -⟩ := h; cases h
    | cons p ps ih =>
      rw [List.mapM_cons]
      cases p with
      | num x => rfl
      | nums x => rfl
      | str s =>
        show ((ps.mapM labelOf) >>= _) = _
        rw [ih]
        · rfl
        · obtain ⟨e, he, h⟩ := h
          rcases List.mem_cons.mp he with rfl | he
          · exact absurd rfl (h s)
          · exact ⟨e, he, h⟩
  unfold plotTof
  rw [he]
  show (localVar env _ >>= _) = _
  rw [lv _ _ hr]
  show (localVar env _ >>= _) = _
  rw [lv _ _ ht]
  show (localVar env _ >>= _) = _
  rw [lv _ _ hp]
  show ((procs.mapM labelOf) >>= _) = _
  rw [key]
  rfl

example : plotTof (K := ℚ) (str! "CO2_g") [.assign (str! "tofs") [.nums [1]], .assign (str! "times") [.num 1], .assign (str! "processes") [.num 3]] = .error .AttributeError :=
  C100_labels _ _ _ [.nums [1]] [.num 1] [.num 3] rfl rfl rfl rfl ⟨.num 3, by simp, by simp⟩

example : plotMerged (K := ℚ) [.assign (str! "times") [.num 1, .num 2], .assign (str! "steps") [.num 2], .assign (str! "coverages") [],
    .assign (str! "possible_types") []] = .error .ValueError :=
  (C107_lengths _ _ [.num 1, .num 2] [.num 2] [] [] rfl rfl rfl rfl rfl (by simp)).2.1 (by simp [AllNums]) (by simp [AllNums]) (by simp) (by simp)

/-- **C57** Executing a file stops with a name error at a statement that extends a list that is not there. -/
theorem C57_names {α : Type} (env : Vars α) (v src : Str) (i j : Nat) (h : get? env v = none) :
    execStmt env (.extend v src) = .error .NameError ∧ execStmt env (.extendAt v i src j) = .error .NameError := by
  have : varGet env v = .error .NameError := by unfold varGet; rw [h]
  constructor
  · show (varGet env v >>= _) = _
    rw [this]
    rfl
  · show (varGet env v >>= _) = _
    rw [this]
    rfl

/-- **C81** A missing file of processes ends reading in an error of input, one without processes in a key error; only the energies are taken. -/
theorem C81_files {K C : Type} (s : KmcSettings) (st : KmcState K C) (r : Str → Py (K × K)) (cf sf : DataFile (List Str)) :
    st.parse s (.ok r) .missing cf sf = (.error .IOError, { st with rates := r }) ∧
    st.parse s (.ok r) .without cf sf = (.error .KeyError, { st with rates := r }) ∧
    ∀ e pf, st.parse s (.error e) pf cf sf = (.error e, st) := ⟨rfl, rfl, fun _ _ => rfl⟩

/-- **C63** Reactions that are no list of texts end loading with a type error. -/
theorem C63_expressions (v : PyVal) : (∃ l, v.seq? = some (l.map .str) ∧ exprTexts v = .ok l) ∨ exprTexts v = .error .TypeError := by
  have key : ∀ l : List PyVal, (∃ l', l = l'.map .str ∧ l.mapM (fun e => match e with | .str s => Except.ok s | _ => (.error .TypeError : Py Str)) = .ok l') ∨
      l.mapM (fun e => match e with | .str s => Except.ok s | _ => (.error .TypeError : Py Str)) = .error .TypeError := by
    intro l
    induction l with
    | nil => exact .inl ⟨[], rfl, rfl⟩
    | cons e l ih =>
      cases e
      case str s =>
        rcases ih with ⟨l', rfl, h⟩ | h
        · refine .inl ⟨s :: l', rfl, ?_⟩
          rw [List.mapM_cons]
          rw [h]
          rfl
        · refine .inr ?_
          rw [List.mapM_cons]
          rw [h]
          rfl
      all_goals exact .inr (by rw [List.mapM_cons]; rfl)
  unfold exprTexts
  cases hv : v.seq? with
  | none => exact .inr rfl
  | some l =>
    dsimp only
    rcases key l with ⟨l', h1, h2⟩ | h
    · exact .inl ⟨l', by rw [h1], h2⟩
    · exact .inr h

/-- **C71** A species that is no adsorbate of the model has no symbol of a coverage. -/
theorem extractAds_unknown {K : Type} (n : Network) (name : Str) :
    (name ∈ n.ads → extractAds (K := K) n name = .ok (.sym (.theta name))) ∧ (name ∉ n.ads → extractAds (K := K) n name = .error .ParameterError) :=
  ⟨fun h => if_pos h, fun h => if_neg h⟩

/-! ## C110, C111 -/

section
variable {K : Type} [Field K]

omit [Field K] in
/-- **C110** A site with fewer than two coordinates raises, before its colour is looked up. -/
theorem C110_coords_failing (colors : Dict Str Str) (marker : Nat → Str → Py Str) (t : Str) (c : List K) (i : Nat) (h : c.length < 2) :
    scatterDot colors marker ((t, c), i) = .error .ValueError := by
  match c, h with
  | [], _ => rfl
  | [x], _ => rfl
  | _ :: _ :: _, h => simp at h

/-- **C111** A process with another number of elements than coordinates raises a value error, before or after the first picture; so do coordinates that are not as many as the vectors of
the cell. -/
theorem C111_failing (basisCoords cell : List (List K)) (colors markers : Dict Str Str) (filename : Str) (p : DrawnProcess K)
    (g : List (List K)) (gs : List (List (List K))) (b : Nat) (bs : List Nat) (v : List K) (hg : p.groups = g :: gs) (hb : p.basis = b :: bs)
    (hv : basisCoords[b]? = some v) :
    (g.length ≠ p.before.length → plotProcess basisCoords cell colors markers filename p = .error .ValueError) ∧
    (g.length ≠ p.after.length → ∀ r, plotProcess basisCoords cell colors markers filename p ≠ .ok r) ∧
    ∀ c : List K, c.length ≠ cell.length → toCartesian cell c = .error .ValueError := by
  have e1 : pyIndex p.groups 0 = .ok g := by rw [hg]; rfl
  have e2 : pyIndex p.basis 0 = .ok b := by rw [hb]; rfl
  have e3 : pyIndex basisCoords (b : Nat) = .ok v := by unfold pyIndex; rw [hv]
  refine ⟨fun h => ?_, fun h r hr => ?_, fun c h => if_pos h⟩
  · unfold plotProcess
    rw [e1]
    show (pyIndex p.basis 0 >>= _) = _
    rw [e2]
    show (pyIndex basisCoords b >>= _) = _
    rw [e3]
    show (if _ then _ else _) = _
    rw [if_pos h]
  · unfold plotProcess at hr
    obtain ⟨g', h1, hr⟩ := bind_ok.mp hr
    obtain ⟨b', h2, hr⟩ := bind_ok.mp hr
    obtain ⟨v', h3, hr⟩ := bind_ok.mp hr
    rw [e1] at h1
    cases h1
    split at hr
    · cases hr
    obtain ⟨m, -, hr⟩ := bind_ok.mp hr
    obtain ⟨d, -, hr⟩ := bind_ok.mp hr
    exact nomatch hr

end

example : plotProcess (K := ℚ) [[0, 0, 0]] [[1, 0, 0], [0, 1, 0], [0, 0, 1]] [] [] (str! "f") ⟨str! "CO_g + *_s -> CO_s", [[[0, 0, 0]]], [], [], [0]⟩ = .error .ValueError :=
  (C111_failing [[0, 0, 0]] _ [] [] _ _ [[0, 0, 0]] [] 0 [] [0, 0, 0] rfl rfl rfl).1 (by decide)

example : ∃ r, plotMerged (K := ℚ) [.assign (str! "times") [.num 1], .assign (str! "steps") [.num 2], .assign (str! "coverages") [.nums [1]],
    .assign (str! "possible_types") [.str (str! "V")]] = .ok r :=
  (C107_succeeds _).mpr ⟨_, [.num 1], [.num 2], [.nums [1]], [.str (str! "V")], rfl, rfl, rfl, rfl, rfl,
    fun p hp => by simp at hp; subst hp; exact ⟨_, rfl, fun _ => .inr ⟨_, rfl, .inl rfl⟩⟩, by simp [AllNums], by simp, by simp [AllNums], rfl⟩

/-! ### The theorems at these cases -/

example := C63_solver microAttrs microName microLoad (microInit 20 10 20 []) [(str! "solver", .str (str! "Newton"))] (.str (str! "Newton")) rfl
  (by rintro s ⟨⟩; decide)

example := C57_names ([] : Vars ℤ) (str! "times") (str! "times_0") 0 0 rfl

example := C110_coords_failing (K := ℚ) [] (fun _ _ => .ok (str! "o")) (str! "CO") [1] 0 (by decide)

end Verif
