import Verif.Props.Logger
import Verif.Props.ProcDefs
import Verif.Props.EventText
import Verif.Props.Tables
import Verif.Props.Exact3
/-
Exact conditions for C15, C75, C98, C108 and C109.
-/
namespace Verif
open Dict

/-- **C75** For every program: each message is written at most once to the console, or to the log file, exactly if at most one model has been made since the handlers
were last removed. -/
theorem C75_iff (ops : List LogOp) (cls : Str) (hc : cls = str! "StreamHandler" ∨ cls = str! "FileHandler") :
    (∀ msg, ((writes (logRun .fresh ops) msg).filter fun h => h.cls = cls).length ≤ 1) ↔ (createdModels 0 ops).2.length ≤ 1 := by
  have hh := congrArg List.length (C75_handlers ops cls hc)
  rw [List.length_map] at hh
  rw [← hh]
  generalize logRun .fresh ops = g
  constructor
  · intro h
    obtain ⟨m, hm, hg⟩ : ∃ m : Int, (∀ x ∈ g.handlers, x.level ≤ m) ∧ g.level ≤ m := by
      generalize g.handlers = l
      induction l with
      | nil => exact ⟨g.level, by simp, le_rfl⟩
      | cons x l ih =>
        obtain ⟨m, h1, h2⟩ := ih
        exact ⟨max m x.level, by
          intro y hy
          rcases List.mem_cons.mp hy with rfl | hy
          · exact le_max_right _ _
          · exact (h1 y hy).trans (le_max_left _ _), h2.trans (le_max_left _ _)⟩
    have := h m
    unfold writes at this
    rwa [if_pos hg, List.filter_eq_self.mpr fun x hx => decide_eq_true (hm x hx)] at this
  · intro h msg
    refine le_trans ?_ h
    unfold writes
    split
    · rw [List.filter_filter]
      exact List.Sublist.length_le (List.monotone_filter_right _ fun x hx => (Bool.and_eq_true_iff.mp hx).1)
    · simp

example : (createdModels 0 [.create 20 10 20, .clear, .create 20 10 20, .setLevel (str! "FileHandler") 30]).2.length ≤ 1 ∧
    ¬ (createdModels 0 [.create 20 10 20, .create 20 10 20]).2.length ≤ 1 := by decide

/-- **C109** Two inputs overwrite the same output exactly if their names agree up to the first point. -/
theorem C109_name_iff (a b : Str) : outFileName a = outFileName b ↔ a.takeWhile (· ≠ '.') = b.takeWhile (· ≠ '.') := by
  have key : ∀ s : Str, ∃ l, splitOn '.' s = s.takeWhile (· ≠ '.') :: l := by
    intro s
    induction s with
    | nil => exact ⟨[], rfl⟩
    | cons x s ih =>
      obtain ⟨l, hl⟩ := ih
      rw [splitOn]
      by_cases hx : x = '.'
      · rw [if_pos hx]
        exact ⟨_, by simp [hx]; rfl⟩
      · rw [if_neg hx, hl]
        exact ⟨l, by simp [hx]⟩
  have e : ∀ s : Str, outFileName s = .ok (s.takeWhile (· ≠ '.') ++ str! "_out.py") := by
    intro s
    obtain ⟨l, hl⟩ := key s
    unfold outFileName
    rw [hl]
  rw [e, e]
  constructor
  · intro h
    exact List.append_cancel_right (Except.ok.inj h)
  · intro h
    rw [h]

example : outFileName (str! "input_1.py") ≠ outFileName (str! "input_2.py") ∧ outFileName (str! "a.1.py") = outFileName (str! "a.2.py") := by
  rw [Ne, C109_name_iff, C109_name_iff]
  decide

/-- **C108** For every table: the picked process is marked exactly if it has a label, a number of sites and a rate, and no other row is marked. -/
theorem C108_arrow_iff (mapping : List Str) (sites : List Nat) (rates : List ℚ) (picked : Nat) (table : List (EventRow ℚ))
    (h : interactionsTable mapping sites rates = .ok table) :
    ((∃ (i : Nat) (c : Str) (cells : List Str), (table.map (eventCells picked))[i]? = some (c :: cells) ∧ (str! "-> ").isPrefixOf c = true) ↔
      picked < mapping.length ∧ picked < sites.length ∧ picked < rates.length) ∧
    ∀ (i : Nat) (c : Str) (cells : List Str), (table.map (eventCells picked))[i]? = some (c :: cells) → (str! "-> ").isPrefixOf c = true → i = picked := by
  have mark : ∀ row : EventRow ℚ, ∃ (c : Str) (cells : List Str), eventCells picked row = c :: cells ∧ ((str! "-> ").isPrefixOf c = true ↔ row.idx = picked) := by
    intro row
    refine ⟨_, _, rfl, ?_⟩
    by_cases hp : row.idx = picked <;> simp [hp]
  have hlen : table.length = min mapping.length (min sites.length rates.length) := by
    unfold interactionsTable at h
    dsimp only at h
    split at h
    · cases h
    · rw [← Except.ok.inj h]
      simp
  have hidx : ∀ (i : Nat) (row : EventRow ℚ), table[i]? = some row → row.idx = i := by
    intro i row hi
    unfold interactionsTable at h
    dsimp only at h
    split at h
    · cases h
    · rw [← Except.ok.inj h, List.getElem?_map, List.getElem?_zipIdx] at hi
      obtain ⟨p, hp, rfl⟩ := Option.map_eq_some_iff.mp hi
      obtain ⟨q, -, rfl⟩ := Option.map_eq_some_iff.mp hp
      simp
  have one : ∀ (i : Nat) (c : Str) (cells : List Str), (table.map (eventCells picked))[i]? = some (c :: cells) → (str! "-> ").isPrefixOf c = true →
      i = picked ∧ i < table.length := by
    intro i c cells hi hp
    rw [List.getElem?_map] at hi
    obtain ⟨row, hr, hc⟩ := Option.map_eq_some_iff.mp hi
    obtain ⟨c', cells', h1, h2⟩ := mark row
    rw [h1] at hc
    cases hc
    exact ⟨(hidx i row hr).symm.trans (h2.mp hp), (List.getElem?_eq_some_iff.mp hr).1⟩
  refine ⟨⟨?_, ?_⟩, fun i c cells hi hp => (one i c cells hi hp).1⟩
  · rintro ⟨i, c, cells, hi, hp⟩
    obtain ⟨rfl, hlt⟩ := one i c cells hi hp
    omega
  · rintro ⟨h1, h2, h3⟩
    have hg := List.getElem?_eq_getElem (show picked < table.length by omega)
    obtain ⟨c, cells, e1, e2⟩ := mark table[picked]
    refine ⟨picked, c, cells, ?_, e2.mpr (hidx _ _ hg)⟩
    rw [List.getElem?_map, hg, Option.map_some, e1]

example : interactionsTable [str! "a(->)", str! "a(<-)"] [3, 1] [(1 : ℚ), 2] = .ok [⟨0, str! "a(->)", 3, 3, 3 / 5⟩, ⟨1, str! "a(<-)", 1, 2, 2 / 5⟩] := by
  decide +kernel

/-- **C98** The words of a row are the index, the name and the number exactly if the name is shorter than the column; a longer name and the number are one word. -/
theorem C98_words_iff (w : Nat) (name : Str) (x : ℚ) (i : Nat) (hb : ' ' ∉ name) (hne : name ≠ []) (hx : InRange x) (hi : i < 10 ^ 9) :
    (wordsOf (rowLine w ((name, x), i)) = [zfill 2 (Nat.toDigits 10 i), name, sciText 16 x] ↔ name.length < w) ∧
    (w ≤ name.length → wordsOf (rowLine w ((name, x), i)) = [zfill 2 (Nat.toDigits 10 i), name ++ sciText 16 x]) := by
  have long : w ≤ name.length → wordsOf (rowLine w ((name, x), i)) = [zfill 2 (Nat.toDigits 10 i), name ++ sciText 16 x] := by
    intro hw
    have hz : (zfill 2 (Nat.toDigits 10 i)).length ≤ 9 := by
      have := (Nat.length_toDigits_le_iff (b := 10) (n := i) (k := 9) (by norm_num) (by norm_num)).mpr hi
      unfold zfill
      rw [List.length_append, List.length_replicate]
      omega
    have hv : (sciText 16 x).length < 30 := (sciText_length 16 x hx).trans_lt (by norm_num)
    have pad : ∀ {w : Nat} {s : Str}, s.length < w → ∃ k, ljust w s = s ++ List.replicate (k + 1) ' ' := by
      intro w s h
      exact ⟨w - s.length - 1, by unfold ljust; congr 2; omega⟩
    obtain ⟨k1, e1⟩ := pad (w := 10) (s := zfill 2 (Nat.toDigits 10 i)) (by omega)
    have e2 : ljust w name = name := by
      unfold ljust
      rw [show w - name.length = 0 by omega]
      simp
    obtain ⟨k3, e3⟩ := pad hv
    unfold rowLine
    dsimp only
    rw [e1, e2, e3, List.append_assoc]
    have : ∀ t : Str, ' ' :: t = List.replicate 1 ' ' ++ t := fun t => rfl
    rw [this, words_pad]
    rw [words_word (fun h => absurd (digit_space (zfill_digit _ _ _ h)).1 (by decide)) (by unfold zfill; simp [Nat.toDigits_ne_nil])]
    have := words_word (a := name ++ sciText 16 x) (s := []) (fun h => by
      rcases List.mem_append.mp h with h | h
      · exact hb h
      · exact absurd (sciText_char 16 x _ h).1 (by decide)) (by simp [hne]) k3
    rw [List.append_nil, List.append_assoc] at this
    rw [this]
    rfl
  refine ⟨⟨fun h => ?_, fun hw => C98_words_partial w name x i hb hne hw hx hi⟩, long⟩
  by_contra hw
  rw [long (not_lt.mp hw)] at h
  exact absurd (congrArg List.length h) (by simp)

example : ' ' ∉ str! "CO_s" ∧ str! "CO_s" ≠ [] ∧ InRange (1 / 2) ∧ (str! "CO_s").length < 25 := by
  refine ⟨by decide, by decide, ?_, by decide⟩
  decide +kernel

/-- **C15** The Shomate correction of a state is the intended sum exactly if what is intended for the formulas written with a coefficient adds up to zero. -/
theorem C15_shomate_iff (T : ℝ) (s : Spec.State) (h : s.ok = true) (c : Str → ℝ)
    (hc : Agrees c (shomateCorrection T)) (d : ℝ) (hd : stateDelta (shomateCorrection T) (s.map ofSpec) 0 = .ok d) :
    d = (s.map fun f => (f.coefficient : ℝ) * c f.speciesSite).sum ↔
      ((s.filter fun f => f.coef ≠ none).map fun f => (f.coefficient : ℝ) * c f.speciesSite).sum = 0 := by
  rw [C15_shomate_state T s h c hc d hd]
  have : (s.map fun f => (f.coefficient : ℝ) * c f.speciesSite).sum = ((s.filter fun f => f.coef = none).map fun f => c f.speciesSite).sum +
      ((s.filter fun f => f.coef ≠ none).map fun f => (f.coefficient : ℝ) * c f.speciesSite).sum := by
    clear h hd
    induction s with
    | nil => simp
    | cons f s ih =>
      rw [List.map_cons, List.sum_cons, ih]
      by_cases hf : f.coef = none
      · rw [List.filter_cons_of_pos (by simpa using hf), List.filter_cons_of_neg (by simpa using hf), List.map_cons, List.sum_cons]
        have : f.coefficient = 1 := by simp [Spec.Formula.coefficient, hf]
        rw [this, Nat.cast_one, one_mul]
        ring
      · rw [List.filter_cons_of_neg (by simpa using hf), List.filter_cons_of_pos (by simpa using hf), List.map_cons, List.sum_cons]
        ring
  rw [this]
  constructor
  · intro h
    linarith
  · intro h
    rw [h, add_zero]

/-- Carbon monoxide twice, and an empty site (the correction of this state is computed beside `C15_shomate_state`). -/
example : exPair.ok = true ∧ (exPair.filter fun f => f.coef ≠ none).length = 1 ∧ (exPair.filter fun f => f.coef = none).length = 1 := by decide

end Verif
