import Verif.Model.Startup
import Mathlib.Algebra.BigOperators.Group.Finset.Basic
import Mathlib.Algebra.Order.BigOperators.Group.Finset
import Mathlib.Tactic.Common
/-
Construction of a model on several processes (C74).
-/
namespace Verif

/-- What holds for one process at place `p` that has entered `e` barriers, when process `q` has entered `E q`; `log0` and
`data0` say which directories were there at the start. -/
def ProcInv (n : Nat) (log0 data0 : Bool) (E : Nat → Nat) (e : Nat) : Pc → Prop
  | .start => e = 0
  | .barrier1 => e = 1
  | .look | .decided _ | .openLog | .lookData => e = 1 ∧ ∀ q < n, 1 ≤ E q
  | .barrier2 => e = 2 ∧ data0 = false ∧ ∀ q < n, 1 ≤ E q
  | .makeData => e = 2 ∧ data0 = false ∧ ∀ q < n, 2 ≤ E q
  | .save | .done => (data0 = true ∧ e = 1 ∨ data0 = false ∧ e = 2) ∧ (∀ q < n, 1 ≤ E q) ∧ (data0 = false → ∀ q < n, 2 ≤ E q)
  | .failed err => err = .IOError ∧ (log0 = false ∧ e = 1 ∨ data0 = false ∧ e = 2)

/-- What holds for the first process and the directories. -/
def MasterInv (log0 data0 log data : Bool) : Pc → Prop
  | .start | .barrier1 | .look => log = log0 ∧ data = data0
  | .decided b => log = log0 ∧ b = log0 ∧ data = data0
  | .openLog | .lookData | .barrier2 | .makeData => log = true ∧ data = data0
  | .save | .done => log = true ∧ data = true
  | .failed _ => False

/-- What holds in every state. -/
structure StartInv (n : Nat) (log0 data0 : Bool) (w : Procs) : Prop where
  each : ∀ r, ProcInv n log0 data0 w.entered (w.entered r) (w.pc r)
  master : MasterInv log0 data0 w.log w.data (w.pc 0)

theorem startInv_init (n : Nat) (log0 data0 : Bool) : StartInv n log0 data0 (.init log0 data0) :=
  ⟨fun _ => rfl, rfl, rfl⟩

theorem mayLeave_iff {n r : Nat} {w : Procs} : w.mayLeave n r = true ↔ ∀ q < n, w.entered r ≤ w.entered q := by
  simp [Procs.mayLeave]

theorem procInv_mono {n : Nat} {log0 data0 : Bool} {E E' : Nat → Nat} {e : Nat} {p : Pc} (hE : ∀ q, E q ≤ E' q)
    (h : ProcInv n log0 data0 E e p) : ProcInv n log0 data0 E' e p := by
  have h1 : (∀ q < n, 1 ≤ E q) → ∀ q < n, 1 ≤ E' q := fun h q hq => (h q hq).trans (hE q)
  have h2 : (∀ q < n, 2 ≤ E q) → ∀ q < n, 2 ≤ E' q := fun h q hq => (h q hq).trans (hE q)
  cases p with
  | start => exact h
  | barrier1 => exact h
  | look => exact ⟨h.1, h1 h.2⟩
  | decided b => exact ⟨h.1, h1 h.2⟩
  | openLog => exact ⟨h.1, h1 h.2⟩
  | lookData => exact ⟨h.1, h1 h.2⟩
  | barrier2 => exact ⟨h.1, h.2.1, h1 h.2.2⟩
  | makeData => exact ⟨h.1, h.2.1, h2 h.2.2⟩
  | save => exact ⟨h.1, h1 h.2.1, fun hd => h2 (h.2.2 hd)⟩
  | done => exact ⟨h.1, h1 h.2.1, fun hd => h2 (h.2.2 hd)⟩
  | failed e => exact h

/-- The invariant after a step that moves process `r` without a barrier and sets the directories. -/
theorem startInv_goto {n r : Nat} {log0 data0 log data : Bool} {w : Procs} {p : Pc} (hi : StartInv n log0 data0 w)
    (hp : ProcInv n log0 data0 w.entered (w.entered r) p) (h0 : r = 0 → MasterInv log0 data0 log data p)
    (h1 : r ≠ 0 → log = w.log ∧ data = w.data) : StartInv n log0 data0 ({ w with log := log, data := data }.goto r p) := by
  constructor
  · intro q
    show ProcInv n log0 data0 w.entered (w.entered q) (if q = r then p else w.pc q)
    by_cases hq : q = r
    · rw [if_pos hq, hq]; exact hp
    · rw [if_neg hq]; exact hi.each q
  · show MasterInv log0 data0 log data (if 0 = r then p else w.pc 0)
    by_cases hr : r = 0
    · rw [if_pos hr.symm]; exact h0 hr
    · rw [if_neg (Ne.symm hr), (h1 hr).1, (h1 hr).2]; exact hi.master

/-- The invariant after entering a barrier. -/
theorem startInv_enter {n r : Nat} {log0 data0 : Bool} {w : Procs} {p : Pc} (hi : StartInv n log0 data0 w)
    (hp : ProcInv n log0 data0 w.entered (w.entered r + 1) p) (h0 : r = 0 → MasterInv log0 data0 w.log w.data p) :
    StartInv n log0 data0 (w.enter r p) := by
  have hE : ∀ q, w.entered q ≤ (w.enter r p).entered q := by
    intro q
    show w.entered q ≤ if q = r then w.entered r + 1 else w.entered q
    by_cases hq : q = r
    · rw [if_pos hq, hq]; omega
    · rw [if_neg hq]
  constructor
  · intro q
    show ProcInv n log0 data0 (w.enter r p).entered (if q = r then w.entered r + 1 else w.entered q) (if q = r then p else w.pc q)
    by_cases hq : q = r
    · rw [if_pos hq, if_pos hq]; exact procInv_mono hE hp
    · rw [if_neg hq, if_neg hq]; exact procInv_mono hE (hi.each q)
  · show MasterInv log0 data0 w.log w.data (if 0 = r then p else w.pc 0)
    by_cases hr : r = 0
    · rw [if_pos hr.symm]; exact h0 hr
    · rw [if_neg (Ne.symm hr)]; exact hi.master

theorem startInv_step {n r : Nat} {log0 data0 : Bool} {w w' : Procs} (hi : StartInv n log0 data0 w) (h : procStep n w r = some w') :
    StartInv n log0 data0 w' := by
  have hrn : r < n := by
    by_contra hr
    unfold procStep at h
    rw [if_pos (by omega)] at h; cases h
  have h0n : 0 < n := by omega
  have he := hi.each r
  have hm : r = 0 → MasterInv log0 data0 w.log w.data (w.pc r) := by rintro rfl; exact hi.master
  have hm0 := hi.master
  have hg : ∀ {p : Pc}, ProcInv n log0 data0 w.entered (w.entered r) p → (r = 0 → MasterInv log0 data0 w.log w.data p) →
      StartInv n log0 data0 (w.goto r p) := fun hp h0 => startInv_goto (log := w.log) (data := w.data) hi hp h0 (fun _ => ⟨rfl, rfl⟩)
  unfold procStep at h
  rw [if_neg (by omega)] at h
  cases hp : w.pc r with
  | start =>
    rw [hp] at h he hm; cases h
    refine startInv_enter hi ?_ hm
    have : w.entered r = 0 := he
    show w.entered r + 1 = 1
    omega
  | barrier1 =>
    rw [hp] at h he hm
    dsimp only at h
    split at h
    · rename_i hl
      cases h
      have he' : w.entered r = 1 := he
      refine hg ⟨he', fun q hq => ?_⟩ hm
      have := mayLeave_iff.mp hl q hq
      omega
    · cases h
  | look =>
    rw [hp] at h he hm; cases h
    refine hg he (fun h0 => ?_)
    obtain ⟨h1, h2⟩ := hm h0
    exact ⟨h1, h1, h2⟩
  | decided b =>
    rw [hp] at h he hm
    dsimp only at h
    split at h
    · rename_i hb
      obtain ⟨h1, h2, h3⟩ := hm hb.2
      rw [if_neg (by rw [h1, ← h2, hb.1]; simp)] at h
      cases h
      exact startInv_goto (log := true) (data := w.data) hi he (fun _ => ⟨rfl, h3⟩) (fun h => absurd hb.2 h)
    · rename_i hb
      cases h
      refine hg he (fun h0 => ?_)
      obtain ⟨h1, h2, h3⟩ := hm h0
      refine ⟨?_, h3⟩
      rw [h1, ← h2]
      by_contra hne
      exact hb ⟨by simpa using hne, h0⟩
  | openLog =>
    rw [hp] at h he hm
    dsimp only at h
    split at h
    · cases h; exact hg he hm
    · rename_i hl
      cases h
      have hl' : w.log = false := by simpa using hl
      refine hg ⟨rfl, .inl ⟨?_, he.1⟩⟩ (fun h0 => ?_)
      · by_contra hne
        have hlog0 : log0 = true := by simpa using hne
        cases h0 : w.pc 0 <;> rw [h0] at hm0 <;> simp_all [MasterInv]
      · have := (hm h0).1
        rw [hl'] at this; cases this
  | lookData =>
    rw [hp] at h he hm
    dsimp only at h
    split at h
    · rename_i hd
      cases h
      have hd0 : data0 = true := by
        by_contra hne
        have hne' : data0 = false := by simpa using hne
        have h2 : ∀ q < n, 2 ≤ w.entered q := by
          have h0 := hi.each 0
          cases hp0 : w.pc 0 <;> rw [hp0] at hm0 h0 <;> simp_all [MasterInv, ProcInv]
        have := h2 r hrn
        have := he.1
        omega
      refine hg ⟨.inl ⟨hd0, he.1⟩, he.2, fun h => ?_⟩ (fun h0 => ⟨(hm h0).1, hd⟩)
      rw [hd0] at h; cases h
    · rename_i hd
      cases h
      have hd0 : data0 = false := by
        by_contra hne
        have hne' : data0 = true := by simpa using hne
        cases hp0 : w.pc 0 <;> rw [hp0] at hm0 <;> simp_all [MasterInv]
      refine startInv_enter hi ⟨?_, hd0, he.2⟩ hm
      have := he.1
      omega
  | barrier2 =>
    rw [hp] at h he hm
    dsimp only at h
    split at h
    · rename_i hl
      cases h
      refine hg ⟨he.1, he.2.1, fun q hq => ?_⟩ hm
      have := mayLeave_iff.mp hl q hq
      have := he.1
      omega
    · cases h
  | makeData =>
    rw [hp] at h he hm
    dsimp only at h
    have hps : ProcInv n log0 data0 w.entered (w.entered r) .save :=
      ⟨.inr ⟨he.2.1, he.1⟩, fun q hq => by have := he.2.2 q hq; omega, fun _ => he.2.2⟩
    split at h
    · rename_i hr0
      rw [if_neg (by rw [(hm hr0).2, he.2.1]; simp)] at h
      cases h
      exact startInv_goto (log := w.log) (data := true) hi hps (fun h0 => ⟨(hm h0).1, rfl⟩) (fun h => absurd hr0 h)
    · rename_i hr0
      cases h
      exact hg hps (fun h => absurd h hr0)
  | save =>
    rw [hp] at h he hm
    dsimp only at h
    split at h
    · cases h; exact hg he hm
    · rename_i hd
      cases h
      refine hg ⟨rfl, ?_⟩ (fun h0 => absurd (hm h0).2 hd)
      rcases he.1 with ⟨hd0, h1⟩ | h2
      · exfalso
        cases hp0 : w.pc 0 <;> rw [hp0] at hm0 <;> simp_all [MasterInv]
      · exact .inr h2
  | done => rw [hp] at h; cases h
  | failed e => rw [hp] at h; cases h

theorem startInv_schedule {n : Nat} {log0 data0 : Bool} (rs : List Nat) (w : Procs) (hi : StartInv n log0 data0 w) :
    StartInv n log0 data0 (schedule n w rs) := by
  induction rs generalizing w with
  | nil => exact hi
  | cons r rs ih =>
    unfold schedule
    cases h : procStep n w r with
    | none => exact ih w hi
    | some w' => exact ih w' (startInv_step hi h)

/-- No process can go on. -/
def Stuck (n : Nat) (w : Procs) : Prop := ∀ r < n, procStep n w r = none

/-- **C74** Whatever the schedule and the directories at the start, the first process never fails. -/
theorem C74_master (n : Nat) (log0 data0 : Bool) (rs : List Nat) (e : PyErr) : (schedule n (.init log0 data0) rs).pc 0 ≠ .failed e := by
  intro h
  have := (startInv_schedule rs _ (startInv_init n log0 data0)).master
  rw [h] at this
  exact this

/-- The place of a process that cannot go on. -/
theorem stuck_cases {n r : Nat} {w : Procs} (hr : r < n) (h : procStep n w r = none) :
    (w.pc r = .barrier1 ∧ ∃ q < n, w.entered q < w.entered r) ∨ (w.pc r = .barrier2 ∧ ∃ q < n, w.entered q < w.entered r) ∨
      w.pc r = .done ∨ ∃ e, w.pc r = .failed e := by
  have hb : ¬ w.mayLeave n r = true → ∃ q < n, w.entered q < w.entered r := by
    intro hm
    by_contra hno
    push Not at hno
    exact hm (mayLeave_iff.mpr hno)
  unfold procStep at h
  rw [if_neg (by omega)] at h
  cases hp : w.pc r <;> rw [hp] at h <;> dsimp only at h
  case barrier1 =>
    split at h
    · cases h
    · rename_i hm; exact .inl ⟨rfl, hb hm⟩
  case barrier2 =>
    split at h
    · cases h
    · rename_i hm; exact .inr (.inl ⟨rfl, hb hm⟩)
  case done => exact .inr (.inr (.inl rfl))
  case failed e => exact .inr (.inr (.inr ⟨e, rfl⟩))
  all_goals (repeat' split at h) <;> cases h

/-- **C74** (partial) When the log directory was there at the start, no schedule lets processes wait for each other for
ever: when none can go on, each has stored its archive or failed; only another process than the first can fail, and only
when the data directory was not there. Without the log directory this is false (`C74_log_refuted`). -/
theorem C74_progress_partial (n : Nat) (data0 : Bool) (rs : List Nat) (hs : Stuck n (schedule n (.init true data0) rs)) (r : Nat) (hr : r < n) :
    (schedule n (.init true data0) rs).pc r = .done ∨
      (schedule n (.init true data0) rs).pc r = .failed .IOError ∧ r ≠ 0 ∧ data0 = false := by
  have hi := startInv_schedule rs _ (startInv_init n true data0)
  have hmaster := C74_master n true data0 rs
  set w := schedule n (.init true data0) rs with hw
  have no1 : ∀ q < n, w.pc q ≠ .barrier1 := by
    intro q hq hp
    rcases stuck_cases hq (hs q hq) with ⟨-, q', hq', hlt⟩ | ⟨h, -⟩ | h | ⟨e, h⟩
    · have h1 := hi.each q
      rw [hp] at h1
      have h1' : w.entered q = 1 := h1
      have h2 := hi.each q'
      rcases stuck_cases hq' (hs q' hq') with ⟨h, -⟩ | ⟨h, -⟩ | h | ⟨e, h⟩ <;> rw [h] at h2
      · have : w.entered q' = 1 := h2
        omega
      · have := h2.1; omega
      · rcases h2.1 with ⟨-, h⟩ | ⟨-, h⟩ <;> omega
      · rcases h2.2 with ⟨h, -⟩ | ⟨-, h⟩
        · cases h
        · omega
    all_goals rw [hp] at h; cases h
  have no2 : ∀ q < n, w.pc q ≠ .barrier2 := by
    intro q hq hp
    rcases stuck_cases hq (hs q hq) with ⟨h, -⟩ | ⟨-, q', hq', hlt⟩ | h | ⟨e, h⟩
    · exact no1 q hq h
    · have h1 := hi.each q
      rw [hp] at h1
      have h1' : w.entered q = 2 := h1.1
      have hd : data0 = false := h1.2.1
      have h2 := hi.each q'
      rcases stuck_cases hq' (hs q' hq') with ⟨h, -⟩ | ⟨h, -⟩ | h | ⟨e, h⟩
      · exact no1 q' hq' h
      · rw [h] at h2; have := h2.1; omega
      · rw [h] at h2
        rcases h2.1 with ⟨h, -⟩ | ⟨-, h⟩
        · rw [hd] at h; cases h
        · omega
      · rw [h] at h2
        rcases h2.2 with ⟨h, -⟩ | ⟨-, h⟩
        · cases h
        · omega
    all_goals rw [hp] at h; cases h
  rcases stuck_cases hr (hs r hr) with ⟨h, -⟩ | ⟨h, -⟩ | h | ⟨e, h⟩
  · exact absurd h (no1 r hr)
  · exact absurd h (no2 r hr)
  · exact .inl h
  · right
    have h2 := hi.each r
    rw [h] at h2
    obtain ⟨rfl, h3⟩ := h2
    refine ⟨h, ?_, ?_⟩
    · rintro rfl; exact hmaster _ h
    · rcases h3 with ⟨h, -⟩ | ⟨h, -⟩
      · cases h
      · exact h

/-- **C74** With both directories there at the start no process fails under any schedule, and when none can go on all
have stored their archives. -/
theorem C74_ready (n : Nat) (rs : List Nat) : (∀ r e, (schedule n (.init true true) rs).pc r ≠ .failed e) ∧
    (Stuck n (schedule n (.init true true) rs) → ∀ r < n, (schedule n (.init true true) rs).pc r = .done) := by
  have hi := startInv_schedule rs _ (startInv_init n true true)
  refine ⟨fun r e h => ?_, fun hs r hr => ?_⟩
  · have := hi.each r
    rw [h] at this
    rcases this.2 with ⟨h, -⟩ | ⟨h, -⟩ <;> cases h
  · rcases C74_progress_partial n true rs hs r hr with h | ⟨-, -, h⟩
    · exact h
    · cases h

/-! ### The number of steps -/

/-- The number of steps made in a schedule. -/
def stepsMade (n : Nat) (w : Procs) : List Nat → Nat
  | [] => 0
  | r :: rs => match procStep n w r with
    | none => stepsMade n w rs
    | some w' => stepsMade n w' rs + 1

/-- The number of places a process has left behind. -/
def Pc.pos : Pc → Nat
  | .start => 0
  | .barrier1 => 1
  | .look => 2
  | .decided _ => 3
  | .openLog => 4
  | .lookData => 5
  | .barrier2 => 6
  | .makeData => 7
  | .save => 8
  | .done => 9
  | .failed _ => 9

theorem pos_le (p : Pc) : p.pos ≤ 9 := by cases p <;> simp [Pc.pos]

theorem procStep_pos {n r : Nat} {w w' : Procs} (h : procStep n w r = some w') : r < n ∧ (w.pc r).pos < (w'.pc r).pos ∧ ∀ q, q ≠ r → w'.pc q = w.pc q := by
  unfold procStep at h
  split at h
  · cases h
  rename_i hr
  refine ⟨by omega, ?_⟩
  cases hp : w.pc r <;> rw [hp] at h <;> dsimp only at h
  all_goals (repeat' split at h) <;> cases h <;>
    exact ⟨by simp [Procs.goto, Procs.enter, Pc.pos], fun q hq => by simp [Procs.goto, Procs.enter, hq]⟩

/-- **C74** However they are scheduled, `n` processes make at most `9 n` steps, so that every schedule in which each process
that can go on does so in the end leads to a state where none can. -/
theorem C74_bounded (n : Nat) (log0 data0 : Bool) (rs : List Nat) : stepsMade n (.init log0 data0) rs ≤ 9 * n := by
  have key : ∀ (rs : List Nat) (w : Procs), stepsMade n w rs + ∑ r ∈ Finset.range n, (w.pc r).pos ≤ 9 * n := by
    intro rs
    induction rs with
    | nil =>
      intro w
      have := Finset.sum_le_card_nsmul (Finset.range n) (fun r => (w.pc r).pos) 9 (fun r _ => pos_le _)
      rw [Finset.card_range, Nat.nsmul_eq_mul, Nat.mul_comm] at this
      simp only [stepsMade]
      omega
    | cons r rs ih =>
      intro w
      unfold stepsMade
      cases h : procStep n w r with
      | none => exact ih w
      | some w' =>
        dsimp only
        obtain ⟨hr, hlt, hother⟩ := procStep_pos h
        have : ∑ q ∈ Finset.range n, (w.pc q).pos < ∑ q ∈ Finset.range n, (w'.pc q).pos := by
          apply Finset.sum_lt_sum
          · intro q _
            by_cases hq : q = r
            · rw [hq]; exact hlt.le
            · rw [hother q hq]
          · exact ⟨r, by simpa using hr, hlt⟩
        have := ih w'
        omega
  have := key rs (.init log0 data0)
  omega

/-! ### Concrete schedules -/

/-- Rank one runs ahead after the first barrier. -/
def exAhead : List Nat := [0, 1, 1, 1, 1, 1, 0, 0, 0, 0, 0, 0]

/-- **C74** (refuted) Without a log directory, a process that runs ahead of the first one fails to open its log file; the
first process then waits for ever in the second barrier. -/
theorem C74_log_refuted : (schedule 2 (.init false false) exAhead).pc 1 = .failed .IOError ∧
    (schedule 2 (.init false false) exAhead).pc 0 = .barrier2 ∧ ∀ r, procStep 2 (schedule 2 (.init false false) exAhead) r = none := by
  refine ⟨by decide, by decide, fun r => ?_⟩
  match r with
  | 0 => exact Option.isNone_iff_eq_none.mp (by decide)
  | 1 => exact Option.isNone_iff_eq_none.mp (by decide)
  | r + 2 => unfold procStep; rw [if_pos (by omega)]

/-- **C74** (refuted) Without a data directory, a process can reach its first archive before the first process has made
the directory, and fails. -/
theorem C74_data_refuted : (schedule 2 (.init true false) [0, 1, 1, 1, 1, 1, 1, 0, 0, 0, 0, 0, 1, 1, 1]).pc 1 = .failed .IOError := by decide

-- a schedule that goes well without directories, and one with them
example : (schedule 2 (.init false false) [0, 1, 0, 0, 0, 0, 0, 1, 1, 1, 1, 1, 0, 0, 0, 1, 1, 1]).pc 1 = .done ∧
    (schedule 3 (.init true true) [0, 1, 2, 2, 2, 2, 2, 2, 2, 0, 0, 0, 0, 0, 0, 1, 1, 1, 1, 1, 1]).pc 2 = .done := by decide

example : Stuck 2 (schedule 2 (.init true false) [0, 1, 1, 1, 1, 1, 1, 0, 0, 0, 0, 0, 1, 1, 1, 0, 0, 0]) := by
  intro r hr
  match r, hr with
  | 0, _ => exact Option.isNone_iff_eq_none.mp (by decide)
  | 1, _ => exact Option.isNone_iff_eq_none.mp (by decide)

/-! ### The theorems at these cases -/

example := C74_progress_partial 2 false [0, 1, 1, 1, 1, 1, 1, 0, 0, 0, 0, 0, 1, 1, 1, 0, 0, 0] (by
  intro r hr
  match r, hr with
  | 0, _ => exact Option.isNone_iff_eq_none.mp (by decide)
  | 1, _ => exact Option.isNone_iff_eq_none.mp (by decide)) 1 (by decide)

end Verif
