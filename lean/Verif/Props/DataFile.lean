import Verif.Lemmas.DataFile
import Mathlib.Algebra.Order.Archimedean.Basic
import Mathlib.Tactic.Linarith
import Mathlib.Tactic.Ring
/- Data files written during runs, and the sampling of ODE trajectories. -/
namespace Verif
open Dict
variable {α : Type}

theorem execFile_ok {file : List (Stmt α)} {env : Vars α} (h1 : file.any badSyntax = false)
    (h2 : execAll [] file = .ok env) : execFile file = .ok env := by
  unfold execFile; rw [h1]; simpa using h2

theorem badSyntax_extendBy {name : Str} {k : Nat} {l : List (Elem α)} (h : Selfish l) :
    (extendBy name k l).any badSyntax = false := by
  unfold extendBy
  rw [List.any_cons, badSyntax_selfish h]
  rfl

/-! ### Turnover frequencies -/

/-- What the file of `TOFAnalysis` reads so far. -/
def TofReads (file : List (Stmt α)) (mapping : List Str) (written : List (α × List α)) : Prop :=
  file.any badSyntax = false ∧ ∃ env, execAll [] file = .ok env ∧
    get? env (str! "times") = some (written.map fun r => .num r.1) ∧
    get? env (str! "tofs") = some (written.map fun r => .nums r.2) ∧
    get? env (str! "processes") = some (mapping.map .str)

theorem tofReads_chunk {file : List (Stmt α)} {mapping : List Str} {written buffer : List (α × List α)} {k : Nat}
    (h : TofReads file mapping written) : TofReads (file ++ tofChunk k buffer) mapping (written ++ buffer) := by
  obtain ⟨h1, env, h2, h3, h4, h5⟩ := h
  have s1 := selfish_num (Prod.fst : α × List α → α) buffer
  have s2 := selfish_nums (Prod.snd : α × List α → List α) buffer
  refine ⟨?_, ?_⟩
  · rw [List.any_append, h1, tofChunk, List.any_append, badSyntax_extendBy s1, badSyntax_extendBy s2]; rfl
  · obtain ⟨e1, a1, a2, a3⟩ := exec_extendBy (k := k) s1 h3
    have h4' : get? e1 (str! "tofs") = some (written.map fun r => .nums r.2) := by
      rw [a3 _ (by decide) (by intro h; simp [chunkVar] at h), h4]
    obtain ⟨e2, b1, b2, b3⟩ := exec_extendBy (k := k) s2 h4'
    refine ⟨e2, ?_, ?_, ?_, ?_⟩
    · rw [execAll_append, h2]
      show execAll env (tofChunk k buffer) = _
      rw [tofChunk, execAll_append, a1]
      exact b1
    · rw [b3 _ (by decide) (by intro h; simp [chunkVar] at h), a2, List.map_append]
    · rw [b2, List.map_append]
    · rw [b3 _ (by decide) (by intro h; simp [chunkVar] at h), a3 _ (by decide) (by intro h; simp [chunkVar] at h), h5]

theorem tofReads_header {mapping : List Str} (h : ∀ s ∈ mapping, PlainText s) :
    TofReads (α := α) (tofHeader mapping) mapping [] := by
  have hs := selfish_str (α := α) h
  refine ⟨?_, [(str! "times", []), (str! "tofs", []), (str! "processes", mapping.map .str)], ?_, ?_, ?_, ?_⟩
  · show (badSyntax _ || (badSyntax _ || (badSyntax (.assign _ (mapping.map .str)) || false))) = false
    rw [badSyntax_selfish hs]; rfl
  · show (execStmt [(str! "times", []), (str! "tofs", [])] (.assign (str! "processes") (mapping.map .str)) >>= fun e => execAll e []) = _
    rw [exec_assign hs]; rfl
  · rfl
  · rfl
  · simp [get?]

theorem tofReads_run {mapping : List Str} {bufferSize : Nat} (records : List (α × List α)) :
    ∀ (s : TofFile α) (written : List (α × List α)), TofReads s.file mapping written →
      ∃ w, TofReads (records.foldl (TofFile.record bufferSize) s).file mapping w ∧
        w ++ (records.foldl (TofFile.record bufferSize) s).buffer = written ++ s.buffer ++ records := by
  induction records with
  | nil => intro s w h; exact ⟨w, h, by simp⟩
  | cons r rs ih =>
    intro s w h
    rw [List.foldl_cons]
    by_cases hb : bufferSize ≤ (s.buffer ++ [r]).length
    · have e : s.record bufferSize r = ⟨s.file ++ tofChunk s.counter (s.buffer ++ [r]), [], s.counter + 1⟩ := by
        unfold TofFile.record; dsimp only; rw [if_pos hb]; rfl
      rw [e]
      obtain ⟨w', h1, h2⟩ := ih ⟨s.file ++ tofChunk s.counter (s.buffer ++ [r]), [], s.counter + 1⟩ _ (tofReads_chunk h)
      exact ⟨w', h1, by rw [h2]; simp⟩
    · have e : s.record bufferSize r = ⟨s.file, s.buffer ++ [r], s.counter⟩ := by
        unfold TofFile.record; dsimp only; rw [if_neg hb]
      rw [e]
      obtain ⟨w', h1, h2⟩ := ih ⟨s.file, s.buffer ++ [r], s.counter⟩ _ h
      exact ⟨w', h1, by rw [h2]; simp⟩

/-- C57 (turnover frequencies): for every buffer size, executing the file gives the recorded times
and frequencies in order and the process labels. -/
theorem C57_tof_file (mapping : List Str) (bufferSize : Nat) (records : List (α × List α)) (hm : ∀ s ∈ mapping, PlainText s) :
    ∃ env, execFile (tofFile mapping bufferSize records) = .ok env ∧
      get? env (str! "times") = some (records.map fun r => .num r.1) ∧
      get? env (str! "tofs") = some (records.map fun r => .nums r.2) ∧
      get? env (str! "processes") = some (mapping.map .str) := by
  obtain ⟨w, h1, h2⟩ := tofReads_run (bufferSize := bufferSize) records ⟨tofHeader mapping, [], 0⟩ [] (tofReads_header hm)
  have h2' : w ++ (records.foldl (TofFile.record bufferSize) ⟨tofHeader mapping, [], 0⟩).buffer = records := by simpa using h2
  have h : TofReads (tofFile mapping bufferSize records) mapping records := by
    unfold tofFile TofFile.finalize
    split
    · have := tofReads_chunk (k := (records.foldl (TofFile.record bufferSize) ⟨tofHeader mapping, [], 0⟩).counter)
        (buffer := (records.foldl (TofFile.record bufferSize) ⟨tofHeader mapping, [], 0⟩).buffer) h1
      rw [h2'] at this
      exact this
    · rename_i hb
      have hb' : (records.foldl (TofFile.record bufferSize) ⟨tofHeader mapping, [], 0⟩).buffer = [] :=
        List.length_eq_zero_iff.mp (by omega)
      rw [hb', List.append_nil] at h2'
      rw [← h2', h2']; exact h2' ▸ h1
  obtain ⟨h1, env, h2, h3⟩ := h
  exact ⟨env, execFile_ok h1 h2, h3⟩

/-- Three windows and a buffer of two records: two flushes. -/
example : tofFile (α := ℤ) [str! "CO_g + *_s -> CO_s(->)"] 2 [(0, [3]), (5, [2]), (9, [4])] =
    tofHeader [str! "CO_g + *_s -> CO_s(->)"] ++ tofChunk 0 [(0, [3]), (5, [2])] ++ tofChunk 1 [(9, [4])] ∧
    PlainText (str! "CO_g + *_s -> CO_s(->)") := by
  constructor
  · decide +kernel
  · intro c hc
    have : (str! "CO_g + *_s -> CO_s(->)").all (fun c => c ≠ '\'' ∧ c ≠ '\\' ∧ c ≠ '\n') = true := by decide
    simpa using List.all_eq_true.mp this c hc

/-! ### Coverages -/

/-- The `i`-th column of the recorded coverages. -/
def covColumn (records : List (CovRec α)) (i : Nat) : List α := records.filterMap fun r => r.cvgs[i]?

/-- What the file of `CoveragesAnalysis` reads so far. -/
def CovReads (file : List (Stmt α)) (n : Nat) (written : List (CovRec α)) : Prop :=
  file.any badSyntax = false ∧ ∃ env, execAll [] file = .ok env ∧
    get? env (str! "times") = some (written.map fun r => .num r.time) ∧
    get? env (str! "steps") = some (written.map fun r => .num r.step) ∧
    get? env (str! "coverages") = some ((List.range n).map fun i => .nums (covColumn written i))

theorem badSyntax_extendAt (cov src : Str) (n : Nat) :
    ((List.range n).map fun i => (.extendAt cov i src i : Stmt α)).any badSyntax = false := by
  rw [List.any_eq_false]
  intro s hs
  obtain ⟨i, -, rfl⟩ := List.mem_map.mp hs
  simp [badSyntax]

theorem badSyntax_covChunk (n k : Nat) (buffer : List (CovRec α)) : (covChunk n k buffer).any badSyntax = false := by
  unfold covChunk
  rw [List.any_append, List.any_append, badSyntax_extendBy (selfish_num (CovRec.time) buffer),
    badSyntax_extendBy (selfish_num (CovRec.step) buffer), List.any_cons,
    badSyntax_selfish (by simpa using selfish_nums (fun x : List α => x) (zipStar (buffer.map (·.cvgs)))), badSyntax_extendAt]
  rfl

/-- The variables after the first three statements of a flush. -/
theorem cov_prefix {file : List (Stmt α)} {n k : Nat} {written buffer : List (CovRec α)} (h : CovReads file n written) :
    ∃ env, execAll [] (file ++ covChunk n k buffer) =
        execAll env ((List.range n).map fun i => .extendAt (str! "coverages") i (chunkVar (str! "coverages") k) i) ∧
      get? env (str! "times") = some ((written ++ buffer).map fun r => .num r.time) ∧
      get? env (str! "steps") = some ((written ++ buffer).map fun r => .num r.step) ∧
      get? env (str! "coverages") = some ((List.range n).map fun i => .nums (covColumn written i)) ∧
      get? env (chunkVar (str! "coverages") k) = some ((zipStar (buffer.map (·.cvgs))).map .nums) := by
  obtain ⟨h1, env, h2, h3, h4, h5⟩ := h
  obtain ⟨e1, a1, a2, a3⟩ := exec_extendBy (k := k) (selfish_num CovRec.time buffer) h3
  have h4' : get? e1 (str! "steps") = some (written.map fun r => .num r.step) := by
    rw [a3 _ (by decide) (by intro h; simp [chunkVar] at h), h4]
  obtain ⟨e2, b1, b2, b3⟩ := exec_extendBy (k := k) (selfish_num CovRec.step buffer) h4'
  have hs : Selfish ((zipStar (buffer.map (·.cvgs))).map (Elem.nums (α := α))) := by
    simpa using selfish_nums (fun x : List α => x) (zipStar (buffer.map (·.cvgs)))
  refine ⟨e2.set (chunkVar (str! "coverages") k) ((zipStar (buffer.map (·.cvgs))).map .nums), ?_, ?_, ?_, ?_, ?_⟩
  · rw [execAll_append, h2]
    show execAll env (covChunk n k buffer) = _
    rw [covChunk, List.append_assoc, execAll_append, a1]
    show execAll e1 (_ ++ _) = _
    rw [execAll_append, b1]
    show (execStmt e2 (.assign (chunkVar (str! "coverages") k) _) >>= fun e => execAll e _) = _
    rw [exec_assign hs]; rfl
  · rw [get?_set, if_neg (by intro h; simp [chunkVar] at h), b3 _ (by decide) (by intro h; simp [chunkVar] at h), a2,
      List.map_append]
  · rw [get?_set, if_neg (by intro h; simp [chunkVar] at h), b2, List.map_append]
  · rw [get?_set, if_neg (chunk_ne _ _), b3 _ (by decide) (by intro h; simp [chunkVar] at h),
      a3 _ (by decide) (by intro h; simp [chunkVar] at h), h5]
  · rw [get?_set, if_pos rfl]

theorem covReads_chunk {file : List (Stmt α)} {n k : Nat} {written buffer : List (CovRec α)} (hb : buffer ≠ [])
    (hr : ∀ r ∈ buffer, r.cvgs.length = n) (h : CovReads file n written) :
    CovReads (file ++ covChunk n k buffer) n (written ++ buffer) := by
  obtain ⟨env, h2, h3, h4, h5, h6⟩ := cov_prefix (k := k) (buffer := buffer) h
  have hz := zipStar_columns (n := n) (rows := buffer.map (·.cvgs)) (by simpa using hb)
    (by intro r hr'; obtain ⟨x, hx, rfl⟩ := List.mem_map.mp hr'; exact hr x hx)
  have h5' : get? env (str! "coverages") = some (((List.range n).map fun i => covColumn written i).map .nums) := by
    rw [h5, List.map_map]; rfl
  obtain ⟨env', a1, a2, a3⟩ := exec_extendAt (chunk_ne _ _) h5' h6 n (by simp) (by rw [hz]; simp)
  refine ⟨by rw [List.any_append, h.1, badSyntax_covChunk]; rfl, env', by rw [h2, a1], ?_, ?_, ?_⟩
  · rw [a3 _ (by decide), h3]
  · rw [a3 _ (by decide), h4]
  · rw [a2, hz]
    congr 1
    rw [List.take_of_length_le (by simp), List.take_of_length_le (by simp), List.drop_of_length_le (by simp), List.append_nil]
    apply List.ext_getElem
    · simp
    · intro i h1 h2
      simp [covColumn, List.filterMap_append, List.filterMap_map, Function.comp_def]

/-- An empty flush with at least one type ends in an `IndexError`. -/
theorem cov_emptyFlush {file : List (Stmt α)} {n k : Nat} {written : List (CovRec α)} (hn : n ≠ 0)
    (h : CovReads file n written) : execAll [] (file ++ covChunk n k []) = .error .IndexError := by
  obtain ⟨env, h2, h3, h4, h5, h6⟩ := cov_prefix (k := k) (buffer := []) h
  rw [h2]
  obtain ⟨m, rfl⟩ := Nat.exists_eq_succ_of_ne_zero hn
  rw [List.range_succ_eq_map]
  rw [List.map_cons]
  have hv1 : varGet env (str! "coverages") = .ok ((List.range (m + 1)).map fun i => .nums (covColumn written i)) := by
    unfold varGet; rw [h5]
  have hv2 : varGet env (chunkVar (str! "coverages") k) = .ok [] := by unfold varGet; rw [h6]; rfl
  have hg : numsAt ((List.range (m + 1)).map fun i => Elem.nums (covColumn written i)) 0 = .ok (covColumn written 0) := by
    unfold numsAt; simp
  have : execStmt env (.extendAt (str! "coverages") 0 (chunkVar (str! "coverages") k) 0) = .error .IndexError := by
    show (varGet env (str! "coverages") >>= fun a => numsAt a 0 >>= fun x => varGet env (chunkVar (str! "coverages") k) >>= fun b =>
      numsAt b 0 >>= fun y => pure (env.set (str! "coverages") (a.set 0 (.nums (x ++ y))))) = _
    rw [hv1]
    show (numsAt _ 0 >>= fun x => varGet env (chunkVar (str! "coverages") k) >>= fun b =>
      numsAt b 0 >>= fun y => _) = _
    rw [hg]
    show (varGet env (chunkVar (str! "coverages") k) >>= fun b => numsAt b 0 >>= fun y => _) = _
    rw [hv2]; rfl
  show (execStmt env _ >>= _) = _
  rw [this]; rfl

theorem covReads_run {n bufferSize : Nat} (hbs : 2 ≤ bufferSize) (records : List (CovRec α)) :
    ∀ (s : CovState α) (written : List (CovRec α)), (∀ r ∈ records, r.cvgs.length = n) → (∀ r ∈ s.buffer, r.cvgs.length = n) →
      s.buffer.length < bufferSize → CovReads s.file n written →
      ∃ w, CovReads (records.foldl (CovState.register n bufferSize) s).file n w ∧
        w ++ (records.foldl (CovState.register n bufferSize) s).buffer = written ++ s.buffer ++ records ∧
        (∀ r ∈ (records.foldl (CovState.register n bufferSize) s).buffer, r.cvgs.length = n) ∧
        (records.foldl (CovState.register n bufferSize) s).buffer.length = (s.buffer.length + records.length) % bufferSize := by
  induction records with
  | nil =>
    intro s w _ h2 h3 h
    exact ⟨w, h, by simp, h2, by rw [List.foldl_nil, List.length_nil, Nat.add_zero, Nat.mod_eq_of_lt h3]⟩
  | cons r rs ih =>
    intro s w h1 h2 h3 h
    rw [List.foldl_cons]
    have hall : ∀ x ∈ s.buffer ++ [r], x.cvgs.length = n := by
      intro x hx
      rcases List.mem_append.mp hx with hx | hx
      · exact h2 x hx
      · rw [List.mem_singleton.mp hx]; exact h1 r (by simp)
    by_cases hb : bufferSize ≤ (s.buffer ++ [r]).length
    · have e : s.register n bufferSize r = ⟨s.file ++ covChunk n s.counter (s.buffer ++ [r]), [], s.counter + 1⟩ := by
        unfold CovState.register; dsimp only; rw [if_pos hb]; rfl
      rw [e]
      obtain ⟨w', g1, g2, g3, g4⟩ := ih ⟨s.file ++ covChunk n s.counter (s.buffer ++ [r]), [], s.counter + 1⟩ _
        (fun x hx => h1 x (by simp [hx])) (by simp) (by simp; omega) (covReads_chunk (by simp) hall h)
      refine ⟨w', g1, by rw [g2]; simp, g3, ?_⟩
      rw [g4]
      have : s.buffer.length + 1 = bufferSize := by simp at hb; omega
      rw [List.length_nil, List.length_cons, Nat.zero_add,
        show s.buffer.length + (rs.length + 1) = rs.length + bufferSize by omega, Nat.add_mod_right]
    · have e : s.register n bufferSize r = ⟨s.file, s.buffer ++ [r], s.counter⟩ := by
        unfold CovState.register; dsimp only; rw [if_neg hb]
      rw [e]
      obtain ⟨w', g1, g2, g3, g4⟩ := ih ⟨s.file, s.buffer ++ [r], s.counter⟩ _ (fun x hx => h1 x (by simp [hx])) hall (by simpa using hb) h
      refine ⟨w', g1, by rw [g2]; simp, g3, ?_⟩
      rw [g4]
      congr 1
      simp; omega

/-- The data statements of the header: without the list of types. -/
theorem covReads_header (possible : List Str) : CovReads (α := α) ((covHeader possible).take 3) possible.length [] := by
  have hs : Selfish (α := α) (List.replicate possible.length (.nums [])) := by
    intro e he; rw [List.eq_of_mem_replicate he]; rfl
  refine ⟨?_, [(str! "times", []), (str! "steps", []), (str! "coverages", List.replicate possible.length (.nums []))], ?_, ?_, ?_, ?_⟩
  · show (badSyntax _ || (badSyntax _ || (badSyntax (.assign _ (List.replicate possible.length (.nums []))) || false))) = false
    rw [badSyntax_selfish hs]; rfl
  · show (execStmt [(str! "times", []), (str! "steps", [])] (.assign (str! "coverages") (List.replicate possible.length (.nums []))) >>=
      fun e => execAll e []) = _
    rw [exec_assign hs]; rfl
  · rfl
  · rfl
  · simp [get?, covColumn, List.map_const']

/-- C57 (coverages), partial: leaving out the list of types, executing the file gives the recorded
times, steps and the column of coverages of every type, when the number of records is not a
multiple of the buffer size. Missing: the list of types is no Python (`C57_coverages_refuted`), and
with a multiple of the buffer size the last flush is empty (`C57_coverages_index_refuted`). -/
theorem C57_coverages_partial (possible : List Str) {bufferSize : Nat} (hb : 2 ≤ bufferSize) (first : CovRec α) (rest : List (CovRec α))
    (hr : ∀ r ∈ first :: rest, r.cvgs.length = possible.length) (hm : (rest.length + 1) % bufferSize ≠ 0) :
    ∃ env, execFile (covFile ((covHeader possible).take 3) possible.length bufferSize first rest) = .ok env ∧
      get? env (str! "times") = some ((first :: rest).map fun r => .num r.time) ∧
      get? env (str! "steps") = some ((first :: rest).map fun r => .num r.step) ∧
      get? env (str! "coverages") =
        some ((List.range possible.length).map fun i => .nums ((first :: rest).filterMap fun r => r.cvgs[i]?)) := by
  obtain ⟨w, h1, h2, h3, h4⟩ := covReads_run hb rest ⟨(covHeader possible).take 3, [first], 0⟩ []
    (fun r h => hr r (by simp [h])) (by intro r h; rw [List.mem_singleton.mp h]; exact hr first (by simp)) (by simp; omega) (covReads_header possible)
  have hne : (rest.foldl (CovState.register possible.length bufferSize) ⟨(covHeader possible).take 3, [first], 0⟩).buffer ≠ [] := by
    intro h
    rw [h] at h4
    apply hm
    rw [List.length_singleton, Nat.add_comm] at h4
    exact h4.symm
  have h := covReads_chunk (k := (rest.foldl (CovState.register possible.length bufferSize) ⟨(covHeader possible).take 3, [first], 0⟩).counter) hne h3 h1
  rw [h2] at h
  obtain ⟨h1, env, h2, h3⟩ := h
  exact ⟨env, execFile_ok h1 h2, h3⟩

/-- C57 (coverages), refuted: with every full last buffer, the final flush writes an empty list and
then takes its first entry. -/
theorem C57_coverages_index_refuted (possible : List Str) (hp : possible ≠ []) {bufferSize : Nat} (hb : 2 ≤ bufferSize) (first : CovRec α)
    (rest : List (CovRec α)) (hr : ∀ r ∈ first :: rest, r.cvgs.length = possible.length) (hm : (rest.length + 1) % bufferSize = 0) :
    execFile (covFile ((covHeader possible).take 3) possible.length bufferSize first rest) = .error .IndexError := by
  obtain ⟨w, h1, h2, h3, h4⟩ := covReads_run hb rest ⟨(covHeader possible).take 3, [first], 0⟩ []
    (fun r h => hr r (by simp [h])) (by intro r h; rw [List.mem_singleton.mp h]; exact hr first (by simp)) (by simp; omega) (covReads_header possible)
  rw [List.length_singleton, Nat.add_comm, hm] at h4
  have hne := List.length_eq_zero_iff.mp h4
  have e : covFile ((covHeader possible).take 3) possible.length bufferSize first rest =
      (rest.foldl (CovState.register possible.length bufferSize) ⟨(covHeader possible).take 3, [first], 0⟩).file ++
      covChunk possible.length (rest.foldl (CovState.register possible.length bufferSize) ⟨(covHeader possible).take 3, [first], 0⟩).counter [] := by
    unfold covFile CovState.flush
    rw [hne]
  unfold execFile
  rw [e, List.any_append, h1.1, badSyntax_covChunk]
  exact cov_emptyFlush (by simpa using hp) h1

theorem covFile_prefix (header : List (Stmt α)) (n bufferSize : Nat) (first : CovRec α) (rest : List (CovRec α)) :
    ∃ tail, covFile header n bufferSize first rest = header ++ tail := by
  have : ∀ (l : List (CovRec α)) (s : CovState α), ∃ tail, (l.foldl (CovState.register n bufferSize) s).file = s.file ++ tail := by
    intro l
    induction l with
    | nil => intro s; exact ⟨[], by simp⟩
    | cons r l ih =>
      intro s
      rw [List.foldl_cons]
      obtain ⟨t, ht⟩ := ih (s.register n bufferSize r)
      rw [ht]
      unfold CovState.register
      dsimp only
      split
      · exact ⟨_ ++ t, List.append_assoc ..⟩
      · exact ⟨t, rfl⟩
  obtain ⟨t, ht⟩ := this rest ⟨header, [first], 0⟩
  exact ⟨t ++ _, by unfold covFile CovState.flush; rw [ht, List.append_assoc]⟩

/-- C57 (coverages), refuted: as soon as one possible type begins with a capital letter that is no
literal prefix, the whole file is no Python: the types are quoted twice. -/
theorem C57_coverages_refuted (possible : List Str) (n bufferSize : Nat) (first : CovRec α) (rest : List (CovRec α)) {c : Char} {cs : Str}
    (hs : (c :: cs) ∈ possible) (hc : isUpper c = true) (_ : c ∉ (str! "RBUFT")) :
    execFile (covFile (covHeader possible) n bufferSize first rest) = .error .SyntaxError := by
  obtain ⟨t, ht⟩ := covFile_prefix (covHeader possible) n bufferSize first rest
  have h1 : c ≠ ' ' := by rintro rfl; simp [isUpper] at hc
  have h2 : c ≠ '\'' := by rintro rfl; simp [isUpper] at hc
  have hq : readStr ('\'' :: (c :: cs) ++ ['\'']) = none := by
    show readLit false ('\'' :: '\'' :: c :: (cs ++ ['\''] ++ ['\''])) = none
    simp [readLit, h1, h2]
  have : (covHeader (α := α) possible).any badSyntax = true := by
    rw [List.any_eq_true]
    refine ⟨.assign (str! "possible_types") (possible.map fun s => .str ('\'' :: s ++ ['\''])), by simp [covHeader], ?_⟩
    show List.any _ _ = true
    rw [List.any_eq_true]
    refine ⟨.str ('\'' :: (c :: cs) ++ ['\'']), List.mem_map.mpr ⟨_, hs, rfl⟩, ?_⟩
    show (readStr ('\'' :: (c :: cs) ++ ['\''])).isNone = true
    rw [hq]; rfl
  unfold execFile
  rw [ht, List.any_append, this]
  rfl

/-- Three records in buffers of two, with two types: the hypotheses of the partial theorem; with
two records the hypotheses of the refutation; the second type is a carbon. -/
example : (∀ r ∈ [(⟨0, 0, [1, 0]⟩ : CovRec ℤ), ⟨1, 10, [0, 1]⟩, ⟨2, 20, [1, 0]⟩], r.cvgs.length = [str! "V", str! "C"].length) ∧
    (2 + 1) % 2 ≠ 0 ∧ (1 + 1) % 2 = 0 ∧ isUpper 'C' = true ∧ 'C' ∉ (str! "RBUFT") := by decide

/-- The columns: what is read for two types. -/
example : covColumn [(⟨0, 0, [1, 0]⟩ : CovRec ℤ), ⟨1, 10, [0, 1]⟩, ⟨2, 20, [1, 0]⟩] 1 = [0, 1, 0] := by decide

/-! ### ODE trajectories -/

/-- The states after the steps of an integration that ends normally. -/
inductive OdePath {σ : Type} [Add α] [LT α] (I : Integrator α σ) (tEnd step : α) : σ → List σ → Prop
  | stop {s} : ¬ I.time s < tEnd → OdePath I tEnd step s []
  | next {s s' l} : I.time s < tEnd → I.integrate s (I.time s + step) = .ok s' → OdePath I tEnd step s' l →
      OdePath I tEnd step s (s' :: l)

/-- The states after steps that all began before the end time. -/
inductive OdeSteps {σ : Type} [Add α] [LT α] (I : Integrator α σ) (tEnd step : α) : σ → List σ → Prop
  | nil {s} : OdeSteps I tEnd step s []
  | next {s s' l} : I.time s < tEnd → I.integrate s (I.time s + step) = .ok s' → OdeSteps I tEnd step s' l →
      OdeSteps I tEnd step s (s' :: l)

/-- The entries whose number, counted from `start`, is a multiple of `n`. -/
def everyNth {β : Type} (n start : Nat) (l : List β) : List β :=
  ((l.zipIdx start).filter fun p => p.2 % n = 0).map (·.1)

theorem everyNth_cons {β : Type} (n k : Nat) (x : β) (l : List β) :
    everyNth n k (x :: l) = (if k % n = 0 then [x] else []) ++ everyNth n (k + 1) l := by
  unfold everyNth
  rw [List.zipIdx_cons, List.filter_cons]
  by_cases h : k % n = 0 <;> simp [h]

/-- What the trajectory file reads so far. -/
def OdeReads {σ : Type} (I : Integrator α σ) (file : List (Stmt α)) (written : List σ) : Prop :=
  file.any badSyntax = false ∧ ∃ env, execAll [] file = .ok env ∧
    get? env (str! "times") = some (written.map fun s => .num (I.time s)) ∧
    get? env (str! "coverages") = some (written.map fun s => .nums (I.cvgs s))

theorem odeReads_chunk {σ : Type} {I : Integrator α σ} {file : List (Stmt α)} {written new : List σ} {k : Nat} (h : OdeReads I file written) :
    OdeReads I (file ++ odeChunk k (new.map I.time) (new.map I.cvgs)) (written ++ new) := by
  obtain ⟨h1, env, h2, h3, h4⟩ := h
  have s1 : Selfish ((new.map I.time).map (Elem.num (α := α))) := by simpa using selfish_num (fun x : α => x) (new.map I.time)
  have s2 : Selfish ((new.map I.cvgs).map (Elem.nums (α := α))) := by simpa using selfish_nums (fun x : List α => x) (new.map I.cvgs)
  refine ⟨by rw [List.any_append, h1, odeChunk, List.any_append, badSyntax_extendBy s1, badSyntax_extendBy s2]; rfl, ?_⟩
  obtain ⟨e1, a1, a2, a3⟩ := exec_extendBy (k := k) s1 h3
  have h4' : get? e1 (str! "coverages") = some (written.map fun s => .nums (I.cvgs s)) := by
    rw [a3 _ (by decide) (by intro h; simp [chunkVar] at h), h4]
  obtain ⟨e2, b1, b2, b3⟩ := exec_extendBy (k := k) s2 h4'
  refine ⟨e2, ?_, ?_, ?_⟩
  · rw [execAll_append, h2]
    show execAll env (odeChunk k _ _) = _
    rw [odeChunk, execAll_append, a1]
    exact b1
  · rw [b3 _ (by decide) (by intro h; simp [chunkVar] at h), a2, List.map_append, List.map_map]; rfl
  · rw [b2, List.map_append, List.map_map]; rfl

theorem odeReads_header {σ : Type} (I : Integrator α σ) : OdeReads I odeHeader [] :=
  ⟨rfl, [(str! "times", []), (str! "coverages", [])], rfl, rfl, rfl⟩

section
variable {σ : Type} [Add α] [LT α] [DecidableLT α] {I : Integrator α σ} {tEnd step : α} {interval : Nat} {output : Bool}

omit [LT α] [DecidableLT α] in
theorem odeTurn_ok {s s' : σ} {v : OdeVars α} (hi : interval ≠ 0) (h : I.integrate s (I.time s + step) = .ok s') :
    odeTurn I step interval output s v = .ok (s', if output = true ∧ (v.nstep + 1) % interval = 0 then
      ⟨v.file ++ odeChunk v.counter (v.ts ++ [I.time s']) (v.ys ++ [I.cvgs s']), [], [], v.counter + 1, v.nstep + 1⟩
      else { v with nstep := v.nstep + 1 }) := by
  unfold odeTurn
  rw [if_neg hi, h]
  show (if _ then _ else _) = _
  split <;> rfl

omit [LT α] [DecidableLT α] in
theorem odeTurn_inv {s s' : σ} {v v' : OdeVars α} (h : odeTurn I step interval output s v = .ok (s', v')) :
    interval ≠ 0 ∧ I.integrate s (I.time s + step) = .ok s' := by
  unfold odeTurn at h
  split at h
  · cases h
  · rename_i hi
    refine ⟨hi, ?_⟩
    cases hs : I.integrate s (I.time s + step) with
    | error e => rw [hs] at h; cases h
    | ok x =>
      rw [hs] at h
      have h' : (if output = true ∧ (v.nstep + 1) % interval = 0 then
        (.ok (x, ⟨v.file ++ odeChunk v.counter (v.ts ++ [I.time x]) (v.ys ++ [I.cvgs x]), [], [], v.counter + 1, v.nstep + 1⟩) : Py (σ × OdeVars α))
        else .ok (x, { v with nstep := v.nstep + 1 })) = .ok (s', v') := h
      split at h' <;> (cases h'; rfl)

omit [LT α] [DecidableLT α] in
/-- The variables after a turn: buffers are empty again and the file reads the sampled states. -/
theorem odeTurn_reads {s s' : σ} {v v' : OdeVars α} {w : List σ} (h : odeTurn I step interval output s v = .ok (s', v'))
    (hw : OdeReads I v.file w) (h1 : v.ts = []) (h2 : v.ys = []) :
    OdeReads I v'.file (w ++ if output = true ∧ (v.nstep + 1) % interval = 0 then [s'] else []) ∧ v'.ts = [] ∧ v'.ys = [] ∧
      v'.nstep = v.nstep + 1 := by
  obtain ⟨hi, hs⟩ := odeTurn_inv h
  rw [odeTurn_ok hi hs] at h
  split at h
  · rename_i hc
    cases h
    rw [if_pos hc]
    refine ⟨?_, rfl, rfl, rfl⟩
    have := odeReads_chunk (k := v.counter) (new := [s']) hw
    rw [h1, h2]
    exact this
  · rename_i hc
    cases h
    rw [if_neg hc, List.append_nil]
    exact ⟨hw, h1, h2, rfl⟩

theorem odeLoop_ok : ∀ (fuel : Nat) (s : σ) (v : OdeVars α) (w : List σ) (r : Py Unit) (s' : σ) (v' : OdeVars α),
    odeLoop I tEnd step interval output fuel s v = some (r, s', v') → OdeReads I v.file w → v.ts = [] → v.ys = [] →
    ∃ path : List σ, s' = path.getLastD s ∧ v'.ts = [] ∧ v'.ys = [] ∧
      OdeReads I v'.file (w ++ if output then everyNth interval (v.nstep + 1) path else []) ∧
      OdeSteps I tEnd step s path ∧ (r = .ok () → OdePath I tEnd step s path) ∧
      (∀ e, r = .error e → I.time s' < tEnd ∧ (interval = 0 ∧ e = .ZeroDivisionError ∨ I.integrate s' (I.time s' + step) = .error e)) := by
  intro fuel
  induction fuel with
  | zero => intro s v w r s' v' h; cases h
  | succ fuel ih =>
    intro s v w r s' v' h hw h1 h2
    have hdef : odeLoop I tEnd step interval output (fuel + 1) s v =
      if I.time s < tEnd then
        match odeTurn I step interval output s v with
        | .error e => some (.error e, s, v)
        | .ok (s', v') => odeLoop I tEnd step interval output fuel s' v'
      else some (.ok (), s, v) := rfl
    rw [hdef] at h
    by_cases ht : I.time s < tEnd
    · rw [if_pos ht] at h
      cases hturn : odeTurn I step interval output s v with
      | error e =>
        rw [hturn] at h
        cases h
        refine ⟨[], rfl, h1, h2, ?_, .nil, (fun h => by cases h), ?_⟩
        · simpa [everyNth] using hw
        · intro e' he
          cases he
          refine ⟨ht, ?_⟩
          unfold odeTurn at hturn
          split at hturn
          · rename_i h0; cases hturn; exact .inl ⟨h0, rfl⟩
          · right
            cases hs : I.integrate s (I.time s + step) with
            | error e' =>
              rw [hs] at hturn
              have : (.error e' : Py (σ × OdeVars α)) = .error e := hturn
              rw [Except.error.inj this]
            | ok x =>
              rw [hs] at hturn
              have h' : (if output = true ∧ (v.nstep + 1) % interval = 0 then
                (.ok (x, ⟨v.file ++ odeChunk v.counter (v.ts ++ [I.time x]) (v.ys ++ [I.cvgs x]), [], [], v.counter + 1, v.nstep + 1⟩) : Py (σ × OdeVars α))
                else .ok (x, { v with nstep := v.nstep + 1 })) = .error e := hturn
              split at h' <;> cases h'
      | ok p =>
        obtain ⟨s1, v1⟩ := p
        rw [hturn] at h
        obtain ⟨hi, hs⟩ := odeTurn_inv hturn
        obtain ⟨k1, k2, k3, k4⟩ := odeTurn_reads hturn hw h1 h2
        obtain ⟨path, p1, p2, p3, p4, p0, p5, p6⟩ := ih s1 v1 _ r s' v' h k1 k2 k3
        refine ⟨s1 :: path, ?_, p2, p3, ?_, .next ht hs p0, fun hr => .next ht hs (p5 hr), p6⟩
        · rw [p1, List.getLastD_cons]
        · rw [k4, List.append_assoc] at p4
          rw [everyNth_cons]
          cases output with
          | true => simpa using p4
          | false => simpa using p4
    · rw [if_neg ht] at h
      cases h
      exact ⟨[], rfl, h1, h2, by simpa [everyNth] using hw, .nil, fun _ => .stop ht, fun e he => by cases he⟩

theorem odeLoop_path {s : σ} {path : List σ} (hi : interval ≠ 0) (hp : OdePath I tEnd step s path) :
    ∀ v, ∃ fuel v', odeLoop I tEnd step interval output fuel s v = some (.ok (), path.getLastD s, v') := by
  induction hp with
  | stop h =>
    intro v
    exact ⟨1, v, by show (if _ then _ else _) = _; rw [if_neg h]; rfl⟩
  | @next s s' l h1 h2 _ ih =>
    intro v
    obtain ⟨fuel, v', h⟩ := ih (if output = true ∧ (v.nstep + 1) % interval = 0 then
      ⟨v.file ++ odeChunk v.counter (v.ts ++ [I.time s']) (v.ys ++ [I.cvgs s']), [], [], v.counter + 1, v.nstep + 1⟩
      else { v with nstep := v.nstep + 1 })
    refine ⟨fuel + 1, v', ?_⟩
    have hdef : odeLoop I tEnd step interval output (fuel + 1) s v =
      if I.time s < tEnd then
        match odeTurn I step interval output s v with
        | .error e => some (.error e, s, v)
        | .ok (s', v') => odeLoop I tEnd step interval output fuel s' v'
      else some (.ok (), s, v) := rfl
    rw [hdef, if_pos h1, odeTurn_ok hi h2]
    show odeLoop I tEnd step interval output fuel s' _ = _
    rw [h, List.getLastD_cons]

/-- C64: when `solve_ode` returns, it has gone through the states of an integration up to the end
time, returns the time and coverages of the last, and with output its file, executed, gives the
times and coverages of exactly every `interval`-th of them. -/
theorem C64_trajectory {fuel : Nat} {s : σ} {t : α} {y : List α} {file : Option (List (Stmt α))}
    (h : solveOde I tEnd step interval output fuel s = some (.ok (t, y), file)) :
    ∃ path : List σ, OdePath I tEnd step s path ∧ t = I.time (path.getLastD s) ∧ y = I.cvgs (path.getLastD s) ∧
      (output = false → file = none) ∧
      (output = true → ∃ f env, file = some f ∧ execFile f = .ok env ∧
        get? env (str! "times") = some ((everyNth interval 1 path).map fun s => .num (I.time s)) ∧
        get? env (str! "coverages") = some ((everyNth interval 1 path).map fun s => .nums (I.cvgs s))) := by
  unfold solveOde at h
  cases hl : odeLoop I tEnd step interval output fuel s ⟨odeHeader, [], [], 0, 0⟩ with
  | none => rw [hl] at h; cases h
  | some p =>
    obtain ⟨r, s', v⟩ := p
    rw [hl] at h
    have h' := Option.some.inj h
    have hr := (Prod.ext_iff.mp h').1
    have hf := (Prod.ext_iff.mp h').2
    dsimp only at hr hf
    obtain ⟨path, p1, p2, p3, p4, -, p5, -⟩ := odeLoop_ok fuel s _ [] r s' v hl (odeReads_header I) rfl rfl
    cases r with
    | error e => cases hr
    | ok u =>
      have hr' : (I.time s', I.cvgs s') = (t, y) := Except.ok.inj hr
      refine ⟨path, p5 rfl, ?_, ?_, ?_, ?_⟩
      · rw [← p1]; exact (Prod.ext_iff.mp hr').1.symm
      · rw [← p1]; exact (Prod.ext_iff.mp hr').2.symm
      · rintro rfl; exact hf.symm
      · rintro rfl
        have := odeReads_chunk (k := v.counter) (new := []) p4
        rw [List.append_nil] at this
        obtain ⟨a1, env, a2, a3, a4⟩ := this
        refine ⟨_, env, hf.symm, ?_, ?_, ?_⟩
        · rw [p2, p3]; exact execFile_ok a1 a2
        · simpa using a3
        · simpa using a4

/-- C64: every integration that reaches the end time is returned, whatever the output. -/
theorem C64_returns {s : σ} {path : List σ} (hi : interval ≠ 0) (hp : OdePath I tEnd step s path) :
    ∃ fuel file, solveOde I tEnd step interval output fuel s =
      some (.ok (I.time (path.getLastD s), I.cvgs (path.getLastD s)), file) := by
  obtain ⟨fuel, v', h⟩ := odeLoop_path (output := output) hi hp ⟨odeHeader, [], [], 0, 0⟩
  exact ⟨fuel, _, by unfold solveOde; rw [h]; rfl⟩

/-- C64: when a step raises, the error is passed on, and the file written so far is complete: it
executes to the sampled states before the failure. -/
theorem C64_failure {fuel : Nat} {s : σ} {e : PyErr} {f : List (Stmt α)}
    (h : solveOde I tEnd step interval true fuel s = some (.error e, some f)) :
    ∃ (path : List σ) (env : Vars α), OdeSteps I tEnd step s path ∧ execFile f = .ok env ∧ I.time (path.getLastD s) < tEnd ∧
      (interval = 0 ∧ e = .ZeroDivisionError ∨
        I.integrate (path.getLastD s) (I.time (path.getLastD s) + step) = .error e) ∧
      get? env (str! "times") = some ((everyNth interval 1 path).map fun s => .num (I.time s)) ∧
      get? env (str! "coverages") = some ((everyNth interval 1 path).map fun s => .nums (I.cvgs s)) := by
  unfold solveOde at h
  cases hl : odeLoop I tEnd step interval true fuel s ⟨odeHeader, [], [], 0, 0⟩ with
  | none => rw [hl] at h; cases h
  | some p =>
    obtain ⟨r, s', v⟩ := p
    rw [hl] at h
    have h' := Option.some.inj h
    have hr := (Prod.ext_iff.mp h').1
    have hf := (Prod.ext_iff.mp h').2
    dsimp only at hr hf
    obtain ⟨path, p1, p2, p3, p4, p0, -, p6⟩ := odeLoop_ok fuel s _ [] r s' v hl (odeReads_header I) rfl rfl
    cases r with
    | ok u => cases hr
    | error e' =>
      have he : e' = e := Except.error.inj hr
      subst he
      have := odeReads_chunk (k := v.counter) (new := []) p4
      rw [List.append_nil] at this
      obtain ⟨a1, env, a2, a3, a4⟩ := this
      have hf' : v.file ++ odeChunk v.counter v.ts v.ys = f := Option.some.inj hf
      refine ⟨path, env, p0, ?_, ?_, ?_, ?_, ?_⟩
      · rw [← hf', p2, p3]; exact execFile_ok a1 a2
      · rw [← p1]; exact (p6 e' rfl).1
      · rw [← p1]; exact (p6 e' rfl).2
      · simpa using a3
      · simpa using a4

end

/-- C64: with an integrator that arrives at the requested times and a positive step, the
integration ends, at or after the end time and by less than a step. -/
theorem C64_terminates {K σ : Type} [Field K] [LinearOrder K] [IsStrictOrderedRing K] [Archimedean K] (I : Integrator K σ) {tEnd step : K}
    (hstep : 0 < step) (hI : ∀ s t, ∃ s', I.integrate s t = .ok s' ∧ I.time s' = t) (s : σ) (hs : I.time s < tEnd) :
    ∃ path, OdePath I tEnd step s path ∧ tEnd ≤ I.time (path.getLastD s) ∧ I.time (path.getLastD s) < tEnd + step ∧
      I.time (path.getLastD s) = I.time s + path.length * step := by
  obtain ⟨n, hn⟩ := Archimedean.arch (tEnd - I.time s) hstep
  have hn' : tEnd ≤ I.time s + (n : K) * step := by rw [nsmul_eq_mul] at hn; linarith
  clear hn
  induction n generalizing s with
  | zero => simp at hn'; exact absurd hs (not_lt.mpr hn')
  | succ n ih =>
    obtain ⟨s', h1, h2⟩ := hI s (I.time s + step)
    by_cases ht : I.time s' < tEnd
    · obtain ⟨path, p1, p2, p3, p4⟩ := ih s' ht (by rw [h2]; push_cast at hn'; linarith)
      have hl : (s' :: path).getLastD s = path.getLastD s' := List.getLastD_cons
      refine ⟨s' :: path, .next hs h1 p1, ?_, ?_, ?_⟩ <;> rw [hl]
      · exact p2
      · exact p3
      · rw [p4, h2, List.length_cons]; push_cast; ring
    · refine ⟨[s'], .next hs h1 (.stop ht), ?_, ?_, ?_⟩
      · exact not_lt.mp ht
      · show I.time s' < _; rw [h2]; linarith
      · show I.time s' = _; rw [h2]; simp

/-- An exact integrator of a coverage growing at rate one. -/
def exIntegrator : Integrator ℚ (ℚ × ℚ) where
  time s := s.1
  cvgs s := [s.2]
  integrate s t := .ok (t, s.2 + (t - s.1))

example : (0 : ℚ) < 1 / 4 ∧ (∀ s t, ∃ s', exIntegrator.integrate s t = .ok s' ∧ exIntegrator.time s' = t) ∧
    exIntegrator.time (0, 0) < 1 :=
  ⟨by norm_num, fun s t => ⟨(t, s.2 + (t - s.1)), rfl, rfl⟩, by norm_num [exIntegrator]⟩

/-- Four steps sampled every second: two records and the final state. -/
example : ((solveOde exIntegrator 1 (1 / 4) 2 true 5 (0, 0)).map fun r => (r.1, r.2.map List.length)) =
    some (.ok (1, [1]), some 14) := by decide +kernel

/-- An integrator that raises at its second step: the file written by then holds one record. -/
example : ((solveOde { exIntegrator with integrate := fun s t => if s.1 = 0 then .ok (t, s.2) else .error .ValueError } 1 (1 / 4) 1 true 5
    (0, 0)).map fun r => (r.1, r.2.map List.length)) = some (.error .ValueError, some 10) := by decide +kernel

/-! ### The theorems at these cases -/

example := C57_tof_file (α := ℤ) [str! "CO_g + *_s -> CO_s(->)"] 2 [(0, [3]), (5, [2]), (9, [4])] (by unfold PlainText; decide)

example := C57_coverages_partial [str! "V", str! "C"] (bufferSize := 2) (by decide) (⟨0, 0, [1, 0]⟩ : CovRec ℤ) [⟨1, 10, [0, 1]⟩, ⟨2, 20, [1, 0]⟩]
  (by decide) (by decide)

example := C57_coverages_index_refuted [str! "V", str! "C"] (by decide) (bufferSize := 2) (by decide) (⟨0, 0, [1, 0]⟩ : CovRec ℤ) [⟨1, 10, [0, 1]⟩]
  (by decide) (by decide)

example := C57_coverages_refuted [str! "V", str! "CO"] 2 2 (⟨0, 0, [1, 0]⟩ : CovRec ℤ) [] (c := 'C') (cs := str! "O") (by decide) (by decide) (by decide)

example : ∃ f, solveOde exIntegrator 1 (1 / 4) 2 true 5 (0, 0) = some (.ok (1, [1]), some f) := by
  have h : ((solveOde exIntegrator 1 (1 / 4) 2 true 5 (0, 0)).map fun r => (r.1, r.2.map List.length)) =
    some (.ok (1, [1]), some 14) := by decide +kernel
  rcases e : solveOde exIntegrator 1 (1 / 4) 2 true 5 (0, 0) with _ | ⟨r, _ | f⟩
  · rw [e] at h; cases h
  · rw [e] at h; simp at h
  · rw [e] at h
    simp only [Option.map_some, Option.some.injEq, Prod.mk.injEq] at h
    exact ⟨f, by rw [h.1]⟩

example := C64_terminates exIntegrator (tEnd := 1) (step := 1 / 4) (by norm_num) (fun s t => ⟨(t, s.2 + (t - s.1)), rfl, rfl⟩) (0, 0)
  (by norm_num [exIntegrator])

end Verif
