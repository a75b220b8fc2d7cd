import Verif.Model.Archive
import Verif.Lemmas.Dict
import Verif.Lemmas.Py
import Mathlib.Data.List.Induction
/- The archive file: what it holds, what a crash leaves, and what a later run makes of it. -/
namespace Verif
open Dict
variable {V β : Type}

/-- The last value given for a name. -/
def lastValue (calls : List (Str × V)) (name : Str) : Option V := (calls.reverse.find? fun c => c.1 = name).map (·.2)

theorem lastValue_append (calls : List (Str × V)) (c : Str × V) (name : Str) :
    lastValue (calls ++ [c]) name = if c.1 = name then some c.2 else lastValue calls name := by
  unfold lastValue
  rw [List.reverse_append, List.reverse_singleton, List.singleton_append, List.find?_cons]
  by_cases h : c.1 = name <;> simp [h]

theorem set_ne_nil (d : Dict Str V) (k : Str) (v : V) : d.set k v ≠ [] := by
  intro h
  have := get?_set d k k v
  rw [h] at this
  simp [get?] at this

/-- Invariant of the archive. -/
theorem archive_inv (dump : Dict Str V → List β) (whitelist : List Str) (file : FileContent β) (calls : List (Str × V)) :
    (keys (calls.foldl (archiveData dump whitelist) ([], file)).1).Nodup ∧
    (∀ name, get? (calls.foldl (archiveData dump whitelist) ([], file)).1 name =
      if name ∈ whitelist then lastValue calls name else none) ∧
    (calls.foldl (archiveData dump whitelist) ([], file)).2 =
      if (calls.filter fun c => decide (c.1 ∈ whitelist)) = [] then file
      else some (dump (calls.foldl (archiveData dump whitelist) ([], file)).1) := by
  induction calls using List.reverseRecOn with
  | nil => exact ⟨List.nodup_nil, fun name => by simp [lastValue, get?], rfl⟩
  | append_singleton calls c ih =>
    obtain ⟨h1, h2, h3⟩ := ih
    rw [List.foldl_append, List.foldl_cons, List.foldl_nil]
    generalize calls.foldl (archiveData dump whitelist) ([], file) = st at *
    by_cases hc : c.1 ∈ whitelist
    · have e : archiveData dump whitelist st c = (st.1.set c.1 c.2, some (dump (st.1.set c.1 c.2))) := by
        unfold archiveData; rw [if_pos hc]; dsimp only; rw [if_neg (set_ne_nil _ _ _)]
      rw [e]
      refine ⟨nodup_set h1, ?_, ?_⟩
      · intro name
        show get? (st.1.set c.1 c.2) name = _
        rw [get?_set, h2, lastValue_append]
        by_cases hn : c.1 = name
        · subst hn; simp [hc]
        · simp [hn]
      · rw [if_neg]
        simp [List.filter_append, hc]
    · have e : archiveData dump whitelist st c = st := by unfold archiveData; rw [if_neg hc]
      rw [e]
      refine ⟨h1, ?_, ?_⟩
      · intro name
        rw [h2, lastValue_append]
        by_cases hn : c.1 = name
        · subst hn; simp [hc]
        · simp [hn]
      · have hf : ((calls ++ [c]).filter fun c => decide (c.1 ∈ whitelist)) = calls.filter fun c => decide (c.1 ∈ whitelist) := by
          rw [List.filter_append, List.filter_singleton]; simp [hc]
        rw [hf, ← h3]

/-- C35: after any calls on one tool, at least one of them whitelisted, the file read back is a
dictionary that holds the last value of every whitelisted name and nothing else. -/
theorem C35_archive_partial (dump : Dict Str V → List β) (load : List β → Py (Dict Str V)) (hload : ∀ d, load (dump d) = .ok d)
    (whitelist : List Str) (file : FileContent β) (calls : List (Str × V)) (hw : ∃ c ∈ calls, c.1 ∈ whitelist) :
    ∃ bytes d, (calls.foldl (archiveData dump whitelist) ([], file)).2 = some bytes ∧ load bytes = .ok d ∧ (keys d).Nodup ∧
      ∀ name, get? d name = if name ∈ whitelist then lastValue calls name else none := by
  obtain ⟨h1, h2, h3⟩ := archive_inv dump whitelist file calls
  obtain ⟨c, hc, hc'⟩ := hw
  rw [if_neg (by intro h; have := List.filter_eq_nil_iff.mp h c hc; simp [hc'] at this)] at h3
  exact ⟨_, _, h3, hload _, h1, h2⟩

/-- C35: without whitelisted calls the file is left as it was. -/
theorem C35_untouched (dump : Dict Str V → List β) (whitelist : List Str) (file : FileContent β) (calls : List (Str × V))
    (hw : ∀ c ∈ calls, c.1 ∉ whitelist) : (calls.foldl (archiveData dump whitelist) ([], file)).2 = file := by
  obtain ⟨-, -, h3⟩ := archive_inv dump whitelist file calls
  rw [h3, if_pos]
  rw [List.filter_eq_nil_iff]
  intro c hc
  simp [hw c hc]

/-- C35, refuted for the next run: every tool begins with an empty dictionary, so its first
whitelisted call throws away what an earlier run has archived under other names. -/
theorem C35_earlier_refuted (dump : Dict Str V → List β) (load : List β → Py (Dict Str V)) (hload : ∀ d, load (dump d) = .ok d)
    (whitelist : List Str) (a b : Str) (va vb : V) (ha : a ∈ whitelist) (hb : b ∈ whitelist) (hab : a ≠ b) :
    ∃ bytes d, ([(b, vb)].foldl (archiveData dump whitelist) ([], ([(a, va)].foldl (archiveData dump whitelist) ([], none)).2)).2 = some bytes ∧
      load bytes = .ok d ∧ get? d a = none ∧ lastValue [(a, va), (b, vb)] a = some va := by
  obtain ⟨bytes, d, h1, h2, -, h4⟩ := C35_archive_partial dump load hload whitelist
    ([(a, va)].foldl (archiveData dump whitelist) ([], none)).2 [(b, vb)] ⟨_, List.mem_singleton.mpr rfl, hb⟩
  refine ⟨bytes, d, h1, h2, ?_, ?_⟩
  · rw [h4 a, if_pos ha]
    simp [lastValue, hab.symm]
  · simp [lastValue, hab.symm]

/-- The names that the documentation of `archived_variables` gives as possible values
(`scaks/models/micro_kinetic_model.py` 54-56). -/
def documentedNames : List Str :=
  [str! "initial_guess", str! "steady_state_coverages", str! "steady_state_error", str! "rates", str! "net_rates",
   str! "reversibilities", str! "tofs"]

/-- C35: the names the solvers archive are exactly the documented ones, so with a whitelist of documented names the archive
holds the latest value of each name on it that was computed, and nothing else. -/
theorem C35_documented (dump : Dict Str V → List β) (load : List β → Py (Dict Str V)) (hload : ∀ d, load (dump d) = .ok d)
    (whitelist : List Str) (file : FileContent β) (calls : List (Str × V)) (hn : ∀ c ∈ calls, c.1 ∈ archivedNames)
    (hw : ∃ c ∈ calls, c.1 ∈ whitelist) :
    (∀ x, x ∈ documentedNames ↔ x ∈ archivedNames) ∧
    ∃ bytes d, (calls.foldl (archiveData dump whitelist) ([], file)).2 = some bytes ∧ load bytes = .ok d ∧
      ∀ name, (get? d name).isSome ↔ name ∈ whitelist ∧ name ∈ documentedNames ∧ ∃ c ∈ calls, c.1 = name := by
  have hdoc : ∀ x, x ∈ documentedNames ↔ x ∈ archivedNames := by
    intro x
    have h1 : ∀ x ∈ documentedNames, x ∈ archivedNames := by decide
    have h2 : ∀ x ∈ archivedNames, x ∈ documentedNames := by decide
    exact ⟨h1 x, h2 x⟩
  refine ⟨hdoc, ?_⟩
  obtain ⟨bytes, d, h1, h2, -, h4⟩ := C35_archive_partial dump load hload whitelist file calls hw
  refine ⟨bytes, d, h1, h2, ?_⟩
  intro name
  have hl : (lastValue calls name).isSome ↔ ∃ c ∈ calls, c.1 = name := by
    unfold lastValue
    rw [Option.isSome_map, List.find?_isSome]
    simp
  rw [h4 name]
  by_cases hx : name ∈ whitelist
  · rw [if_pos hx, hl]
    refine ⟨fun ⟨c, hc, e⟩ => ⟨hx, ?_, c, hc, e⟩, fun h => h.2.2⟩
    rw [hdoc, ← e]
    exact hn c hc
  · rw [if_neg hx]
    simp [hx]

/-- A pickle for integers: each entry as one block. -/
def exDump (d : Dict Str Int) : List (Option (Str × Int)) := d.map some ++ [none]

/-- Its reader: wants the end mark. -/
def exLoad : List (Option (Str × Int)) → Py (Dict Str Int)
  | [] => .error .ValueError
  | none :: _ => .ok []
  | some e :: r => (exLoad r).map (e :: ·)

theorem exLoad_dump : ∀ d, exLoad (exDump d) = .ok d := by
  intro d
  induction d with
  | nil => rfl
  | cons e d ih =>
    show (exLoad (exDump d)).map (e :: ·) = _
    rw [ih]; rfl

example : (∀ d, exLoad (exDump d) = .ok d) ∧ (∃ c ∈ [(str! "tofs", (1 : Int)), (str! "rates", 2), (str! "tofs", 3)], c.1 ∈ [str! "tofs"]) ∧
    ([(str! "tofs", (1 : Int)), (str! "rates", 2), (str! "tofs", 3)].foldl (archiveData exDump [str! "tofs"]) ([], none)).2 =
      some (exDump [(str! "tofs", 3)]) := ⟨exLoad_dump, by decide, by decide⟩

/-! ### Crashes -/

/-- C36, partial: at any moment of any call the file is what it was before the call or a beginning
of the new archive. Missing: an incomplete beginning is no archive (`C36_crash_refuted`). -/
theorem C36_crash_partial (dump : Dict Str V → List β) (whitelist : List Str) (st : Dict Str V × FileContent β) (call : Str × V)
    (c : FileContent β) (hc : c ∈ archiveTrace dump whitelist st call) :
    c = st.2 ∨ call.1 ∈ whitelist ∧ ∃ n, c = some ((dump (archiveData dump whitelist st call).1).take n) := by
  unfold archiveTrace at hc
  rcases List.mem_cons.mp hc with h | h
  · exact .inl h
  · split at h
    · rename_i hw
      dsimp only at h
      rw [if_neg (set_ne_nil _ _ _)] at h
      obtain ⟨n, -, rfl⟩ := List.mem_map.mp h
      exact .inr ⟨hw, n, by unfold archiveData; rw [if_pos hw]⟩
    · cases h

/-- The trace of a call begins with the old content and ends with the new. -/
theorem C36_trace_ends (dump : Dict Str V → List β) (whitelist : List Str) (st : Dict Str V × FileContent β) (call : Str × V) :
    (archiveTrace dump whitelist st call).head? = some st.2 ∧
    (archiveTrace dump whitelist st call).getLast? = some (archiveData dump whitelist st call).2 := by
  refine ⟨rfl, ?_⟩
  unfold archiveTrace archiveData
  split
  · dsimp only
    rw [if_neg (set_ne_nil _ _ _), if_neg (set_ne_nil _ _ _), List.range_succ, List.map_append, List.map_singleton,
      List.take_length, ← List.cons_append, List.getLast?_concat]
  · rfl

/-- C36, refuted: every whitelisted call passes through an empty file, whatever was archived
before, and there a reader that needs at least one byte fails. -/
theorem C36_crash_refuted (dump : Dict Str V → List β) (load : List β → Py (Dict Str V)) (hload : ∀ d, load (dump d) = .ok d) {e : PyErr}
    (hempty : load [] = .error e) (whitelist : List Str) (st : Dict Str V × FileContent β) (call : Str × V) (hw : call.1 ∈ whitelist)
    (d0 : Dict Str V) (h0 : st.2 = some (dump d0)) :
    ∃ c ∈ archiveTrace dump whitelist st call, c = some [] ∧ c ≠ st.2 ∧ c ≠ (archiveData dump whitelist st call).2 := by
  have hne : ∀ d, dump d ≠ [] := by
    intro d h
    have := hload d
    rw [h, hempty] at this
    cases this
  refine ⟨some [], ?_, rfl, ?_, ?_⟩
  · unfold archiveTrace
    rw [if_pos hw]
    dsimp only
    rw [if_neg (set_ne_nil _ _ _)]
    exact List.mem_cons_of_mem _ (List.mem_map.mpr ⟨0, by simp, by simp⟩)
  · rw [h0]
    intro h
    exact hne d0 (Option.some.inj h).symm
  · unfold archiveData
    rw [if_pos hw]
    dsimp only
    rw [if_neg (set_ne_nil _ _ _)]
    intro h
    exact hne _ (Option.some.inj h).symm

/-- C36: at any moment of any sequence of calls the file is what it was in the beginning or a beginning of the archive of
the last whitelisted values of some calls made so far; in the end it is the archive of all calls. -/
theorem C36_history_partial (dump : Dict Str V → List β) (whitelist : List Str) (file : FileContent β) (calls : List (Str × V)) :
    (∀ c ∈ archiveHistory dump whitelist ([], file) calls, c = file ∨ ∃ pre, pre <+: calls ∧ pre ≠ [] ∧ ∃ n d,
      c = some ((dump d).take n) ∧ (keys d).Nodup ∧ ∀ name, get? d name = if name ∈ whitelist then lastValue pre name else none) ∧
    (archiveHistory dump whitelist ([], file) calls).getLast? = some (calls.foldl (archiveData dump whitelist) ([], file)).2 := by
  have key : ∀ (calls before : List (Str × V)),
      (∀ c ∈ archiveHistory dump whitelist (before.foldl (archiveData dump whitelist) ([], file)) calls, c = file ∨
        ∃ pre, pre <+: before ++ calls ∧ pre ≠ [] ∧ ∃ n d,
        c = some ((dump d).take n) ∧ (keys d).Nodup ∧ ∀ name, get? d name = if name ∈ whitelist then lastValue pre name else none) ∧
      (archiveHistory dump whitelist (before.foldl (archiveData dump whitelist) ([], file)) calls).getLast?
        = some ((before ++ calls).foldl (archiveData dump whitelist) ([], file)).2 := by
    have hdone : ∀ before : List (Str × V), (before.foldl (archiveData dump whitelist) ([], file)).2 = file ∨
        before ≠ [] ∧ ∃ n d, (before.foldl (archiveData dump whitelist) ([], file)).2 = some ((dump d).take n) ∧ (keys d).Nodup ∧
          ∀ name, get? d name = if name ∈ whitelist then lastValue before name else none := by
      intro before
      obtain ⟨h1, h2, h3⟩ := archive_inv dump whitelist file before
      split at h3
      · exact .inl h3
      · rename_i hne
        refine .inr ⟨?_, (dump (before.foldl (archiveData dump whitelist) ([], file)).1).length, _, ?_, h1, h2⟩
        · rintro rfl; exact hne rfl
        · rw [h3, List.take_length]
    intro calls
    induction calls with
    | nil =>
      intro before
      refine ⟨?_, by simp [archiveHistory]⟩
      intro c hc
      rw [archiveHistory, List.mem_singleton] at hc
      subst hc
      rcases hdone before with h | ⟨h1, h2⟩
      · exact .inl h
      · exact .inr ⟨before, by simp, h1, h2⟩
    | cons call calls ih =>
      intro before
      obtain ⟨i1, i2⟩ := ih (before ++ [call])
      rw [List.foldl_append, List.foldl_cons, List.foldl_nil, List.append_assoc, List.singleton_append] at i1 i2
      unfold archiveHistory
      constructor
      · intro c hc
        rcases List.mem_append.mp hc with hc | hc
        · rcases C36_crash_partial dump whitelist _ call c hc with h | ⟨hw, n, h⟩
          · rcases hdone before with h' | ⟨h1, h2⟩
            · exact .inl (h.trans h')
            · rw [← h] at h2
              exact .inr ⟨before, List.prefix_append _ _, h1, h2⟩
          · obtain ⟨g1, g2, -⟩ := archive_inv dump whitelist file (before ++ [call])
            rw [List.foldl_append, List.foldl_cons, List.foldl_nil] at g1 g2
            exact .inr ⟨before ++ [call], ⟨calls, by simp⟩, by simp, n, _, h, g1, g2⟩
        · exact i1 c hc
      · rw [List.getLast?_append, i2]
        rfl
  exact key calls []

example : archiveHistory exDump [str! "tofs"] ([], none) [(str! "tofs", 1), (str! "rates", 7), (str! "tofs", 2)] =
    [none, some [], some [some (str! "tofs", 1)], some [some (str! "tofs", 1), none], some [some (str! "tofs", 1), none],
      some [some (str! "tofs", 1), none], some [], some [some (str! "tofs", 2)], some [some (str! "tofs", 2), none],
      some [some (str! "tofs", 2), none]] := by decide

/-- C36: after such a crash a run without initial coverages raises instead of starting. -/
theorem C36_after_crash {A U : Type} (load : List β → Py (Dict Str A)) {e : PyErr} (hempty : load [] = .error e) (nads : Nat) (fsolve coarse : Bool) :
    runPlan (V := U) load nads .none fsolve coarse (some []) = .error e := by
  unfold runPlan chooseStart
  dsimp only
  rw [hempty]; rfl

example : exLoad [] = .error .ValueError ∧ (some (exDump [(str! "tofs", 1)]) : FileContent _) = some (exDump [(str! "tofs", 1)]) ∧
    str! "tofs" ∈ [str! "tofs"] ∧
    archiveTrace exDump [str! "tofs"] ([], some (exDump [(str! "tofs", 1)])) (str! "tofs", 2) =
      [some [some (str! "tofs", 1), none], some [], some [some (str! "tofs", 2)], some [some (str! "tofs", 2), none]] := by decide

/-! ### The next run -/

/-- C37, refuted: whatever the solvers archive, with whatever whitelist, a run without initial
coverages never starts from the archive: the name looked up is none of the archived ones. -/
theorem C37_archive_refuted {U : Type} (dump : Dict Str V → List β) (load : List β → Py (Dict Str V)) (hload : ∀ d, load (dump d) = .ok d)
    (whitelist : List Str) (calls : List (Str × V)) (hn : ∀ c ∈ calls, c.1 ∈ archivedNames) (hw : ∃ c ∈ calls, c.1 ∈ whitelist)
    (nads : Nat) (coarse : Bool) :
    chooseStart (V := U) load nads .none coarse (calls.foldl (archiveData dump whitelist) ([], none)).2 = .ok (.ode, coarse) := by
  obtain ⟨bytes, d, h1, h2, -, h4⟩ := C35_archive_partial dump load hload whitelist none calls hw
  have hg : get? d (str! "steady_state_coverage") = none := by
    rw [h4]
    split
    · unfold lastValue
      rw [Option.map_eq_none_iff, List.find?_eq_none]
      intro c hc
      have := hn c (List.mem_reverse.mp hc)
      intro h
      rw [decide_eq_true_eq] at h
      rw [h] at this
      revert this
      decide
    · rfl
  unfold chooseStart
  dsimp only
  rw [h1]
  dsimp only
  rw [h2]
  show (match get? d (str! "steady_state_coverage") with | some a => _ | none => _) = _
  rw [hg]; rfl

/-- C37, partial: coverages stored under the name that is looked up are the start, without a coarse
solution. Missing: the solvers store them under another name (`C37_archive_refuted`). -/
theorem C37_start_partial {A U : Type} (load : List β → Py (Dict Str A)) (bytes : List β) (d : Dict Str A) (a : A) (hl : load bytes = .ok d)
    (ha : get? d (str! "steady_state_coverage") = some a) (nads : Nat) (coarse : Bool) :
    runPlan (V := U) load nads .none false coarse (some bytes) = .ok (.direct (.archived a)) := by
  have : chooseStart (V := U) load nads .none coarse (some bytes) = .ok (.archived a, false) := by
    unfold chooseStart
    dsimp only
    rw [hl]
    show (match get? d (str! "steady_state_coverage") with | some a => _ | none => _) = _
    rw [ha]; rfl
  unfold runPlan
  rw [this]; rfl

example : (∀ c ∈ [(str! "steady_state_coverages", (1 : Int))], c.1 ∈ archivedNames) ∧
    (∃ c ∈ [(str! "steady_state_coverages", (1 : Int))], c.1 ∈ [str! "steady_state_coverages"]) ∧
    exLoad (exDump [(str! "steady_state_coverage", 1)]) = .ok [(str! "steady_state_coverage", 1)] := by decide

/-- C70: given coverages are the start whatever is archived; a wrong number of them or another
type is a `ParameterError`. -/
theorem C70_given {A U : Type} (load : List β → Py (Dict Str A)) (nads : Nat) (l : List U) (hl : l ≠ []) (fsolve coarse : Bool) (file : FileContent β) :
    runPlan load nads (.seq l) fsolve coarse file =
      if l.length = nads then .ok (if fsolve then .fsolve (.given l) else if coarse then .coarseFirst (.given l) else .direct (.given l))
      else .error .ParameterError := by
  cases l with
  | nil => exact absurd rfl hl
  | cons x l =>
    unfold runPlan chooseStart
    dsimp only
    by_cases h : (x :: l).length = nads
    · rw [if_neg (not_not.mpr h), if_pos h]
      cases fsolve <;> cases coarse <;> rfl
    · rw [if_pos h, if_neg h]; rfl

/-- C70, partial: without coverages and archive the solver is left to its own guess, when the
coarse solution is switched off. -/
theorem C70_first_partial {A U : Type} (load : List β → Py (Dict Str A)) (nads : Nat) :
    runPlan (V := U) load nads .none false false none = .ok (.direct .nothing) := rfl

/-- C70, refuted: with the default settings a first run without coverages and without an archive
raises. -/
theorem C70_first_refuted {A U : Type} (load : List β → Py (Dict Str A)) (nads : Nat) :
    runPlan (V := U) load nads .none false true none = .error .TypeError := rfl

example : runPlan exLoad 2 (.seq [(1 : Int), 0]) false true (some (exDump [])) = .ok (.coarseFirst (.given [1, 0])) ∧
    runPlan exLoad 3 (.seq [(1 : Int), 0]) false true none = .error .ParameterError := by decide

/-! ### The theorems at these cases -/

example := C35_archive_partial exDump exLoad exLoad_dump [str! "tofs"] none [(str! "tofs", (1 : Int)), (str! "rates", 2), (str! "tofs", 3)] (by decide)

example := C35_untouched exDump [str! "tofs"] (some (exDump [(str! "tofs", 1)])) [(str! "rates", (2 : Int))] (by decide)

example := C35_earlier_refuted exDump exLoad exLoad_dump [str! "tofs", str! "rates"] (str! "tofs") (str! "rates") 1 2 (by decide) (by decide) (by decide)

example := C35_documented exDump exLoad exLoad_dump [str! "tofs"] none [(str! "tofs", (1 : Int)), (str! "rates", 2)] (by decide) (by decide)

example := C36_crash_partial exDump [str! "tofs"] ([], some (exDump [(str! "tofs", 1)])) (str! "tofs", 2) (some [some (str! "tofs", 2)]) (by decide)

example := C36_crash_refuted exDump exLoad exLoad_dump (e := .ValueError) rfl [str! "tofs"] ([], some (exDump [(str! "tofs", 1)])) (str! "tofs", 2)
  (by decide) [(str! "tofs", 1)] rfl

example (nads : Nat) (fsolve coarse : Bool) := C36_after_crash (U := Int) exLoad (e := .ValueError) rfl nads fsolve coarse

example (nads : Nat) (coarse : Bool) := C37_archive_refuted (U := Int) exDump exLoad exLoad_dump [str! "steady_state_coverages"]
  [(str! "steady_state_coverages", (1 : Int))] (by decide) (by decide) nads coarse

example (nads : Nat) (coarse : Bool) := C37_start_partial (U := Int) exLoad (exDump [(str! "steady_state_coverage", 1)])
  [(str! "steady_state_coverage", 1)] 1 (by decide) (by decide) nads coarse

example := C70_given exLoad 2 [(1 : Int), 0] (by decide) false true (some (exDump []))

end Verif
