import Verif.Model.ContinueRun
import Verif.Lemmas.Chars
import Verif.Lemmas.Dict
/- C102: the setup file of a continued lattice run. -/
namespace Verif
open Dict

/-- A line of a file: one line end, at its end. -/
def IsLine (l : Str) : Prop := ∃ b, '\n' ∉ b ∧ l = b ++ ['\n']

theorem readlines_cons {b s : Str} (h : '\n' ∉ b) : readlines (b ++ '\n' :: s) = (b ++ ['\n']) :: readlines s := by
  induction b with
  | nil => simp [readlines]
  | cons c b ih =>
    have hc : c ≠ '\n' := fun e => h (by simp [e])
    rw [List.cons_append, readlines, if_neg hc, ih (fun hb => h (by simp [hb]))]
    rfl

theorem readlines_end {b : Str} (h : '\n' ∉ b) (hb : b ≠ []) : readlines b = [b] := by
  induction b with
  | nil => exact absurd rfl hb
  | cons c b ih =>
    have hc : c ≠ '\n' := fun e => h (by simp [e])
    rw [readlines, if_neg hc]
    cases b with
    | nil => rfl
    | cons d b => rw [ih (fun hb => h (by simp [hb])) (by simp)]

theorem readlines_flatten {ls : List Str} (h : ∀ l ∈ ls, IsLine l) : readlines ls.flatten = ls := by
  induction ls with
  | nil => rfl
  | cons l ls ih =>
    obtain ⟨b, hb, rfl⟩ := h l (by simp)
    rw [List.flatten_cons, List.append_assoc, List.singleton_append, readlines_cons hb, ih (fun l hl => h l (by simp [hl]))]

/-- Nothing but blanks before a comment. -/
def IsBlank (l : Str) : Prop := ∀ c ∈ l.takeWhile (· ≠ '#'), isSpace c = true

/-- Text of a number, or any other text on one line without blanks around it, equal signs and comments. -/
def IsValue (v : Str) : Prop := v ≠ [] ∧ Trim v ∧ '\n' ∉ v ∧ '=' ∉ v ∧ '#' ∉ v

theorem strip_cons_ne {c : Char} {s : Str} (h : isSpace c = false) : strip (c :: s) ≠ [] := by
  have key : ∀ a : Str, (a ++ [c]).dropWhile isSpace ≠ [] := by
    intro a
    induction a with
    | nil => simp [h]
    | cons d a ih =>
      rw [List.cons_append, List.dropWhile_cons]
      split
      · exact ih
      · simp
  unfold strip
  rw [List.dropWhile_cons, h]
  simpa using key s.reverse

theorem takeWhile_append_all {p : Char → Bool} {a b : Str} (h : ∀ c ∈ a, p c = true) : (a ++ b).takeWhile p = a ++ b.takeWhile p := by
  induction a with
  | nil => rfl
  | cons c a ih => simp [h c (by simp), ih (fun d hd => h d (by simp [hd]))]

theorem space_ne {c d : Char} (h : isSpace c = true) (hd : isSpace d = false) : c ≠ d := by
  rintro rfl; rw [h] at hd; cases hd

theorem execLine_start {v rest : Str} (hv : IsValue v) (hr : IsBlank rest) :
    execLine (str! "start_time = " ++ v ++ rest) = .ok (some (str! "start_time", v)) := by
  obtain ⟨h0, h1, h2, h3, h4⟩ := hv
  have e0 : (str! "start_time = " ++ v ++ rest).takeWhile (· ≠ '#') = str! "start_time = " ++ v ++ rest.takeWhile (· ≠ '#') := by
    apply takeWhile_append_all
    intro c hc
    rcases List.mem_append.mp hc with hc | hc
    · have : ∀ c ∈ str! "start_time = ", decide (c ≠ '#') = true := by decide
      exact this c hc
    · simp; rintro rfl; exact h4 hc
  unfold execLine
  dsimp only
  rw [e0]
  set w := rest.takeWhile (· ≠ '#') with hw
  have hwv : strip (' ' :: (v ++ w)) = v := by
    have := strip_pad (a := [' ']) (s := v) (b := w) (by simp; decide) hr h1
    simpa using this
  have hne : strip (str! "start_time = " ++ v ++ w) ≠ [] := by
    intro e
    have hs := strip_pad (a := []) (s := str! "start_time = " ++ v) (b := w) (by simp) hr ⟨by
        intro c hc; simp at hc; subst hc; decide, by
        intro c hc; apply h1.2 c
        rw [List.getLast?_append_of_ne_nil _ h0] at hc; exact hc⟩
    rw [List.nil_append] at hs
    rw [hs] at e
    simp at e
  rw [if_neg hne]
  have e1 : (str! "start_time = " ++ v ++ w).takeWhile (· ≠ '=') = str! "start_time " := by rfl
  have e2 : (str! "start_time = " ++ v ++ w).dropWhile (· ≠ '=') = '=' :: ' ' :: (v ++ w) := by rfl
  rw [e1, e2]
  dsimp only
  rw [hwv, if_pos]
  · rfl
  · refine ⟨by decide, by decide, h0, ?_⟩
    intro hc
    rcases List.mem_cons.mp hc with hc | hc
    · exact absurd hc (by decide)
    · rcases List.mem_append.mp hc with hc | hc
      · exact h3 hc
      · exact absurd (hr _ hc) (by decide)

theorem execLine_blank {l : Str} (h : IsBlank l) : execLine l = .ok none := by
  unfold execLine
  have : strip (l.takeWhile (· ≠ '#')) = [] := by
    have := strip_pad (a := l.takeWhile (· ≠ '#')) (s := []) (b := []) h (by simp) ⟨by simp, by simp⟩
    simpa using this
  dsimp only
  rw [if_pos this]

/-- The lines of the new file, as a user expects them. -/
def expectedLines (t : Str) (ls : List Str) : List Str :=
  ls.map fun l => if startsStartTime l then str! "start_time = " ++ t ++ ['\n'] else l

/-- Every line that gives the start time is the last one, or only blanks and comments follow on the next line. -/
def SafeLines : List Str → Prop
  | [] => True
  | [_] => True
  | l :: m :: ls => (startsStartTime l = true → IsBlank m) ∧ SafeLines (m :: ls)

theorem blank_not_start {l : Str} (h : IsBlank l) : startsStartTime l = false := by
  cases hs : startsStartTime l with
  | false => rfl
  | true =>
    unfold startsStartTime at hs
    rw [List.isPrefixOf_iff_prefix] at hs
    obtain ⟨t, rfl⟩ := hs
    exact absurd (h 's' (by simp)) (by decide)

theorem start_line_isLine {t : Str} (ht : IsValue t) : IsLine (str! "start_time = " ++ t ++ ['\n']) :=
  ⟨_, by
    intro hc
    rcases List.mem_append.mp hc with hc | hc
    · exact absurd hc (by decide)
    · exact ht.2.2.1 hc, rfl⟩

/-- What the new text means, line by line. -/
theorem exec_replaced {t : Str} (ht : IsValue t) : ∀ (n : Nat) (ls : List Str), ls.length ≤ n → (∀ l ∈ ls, IsLine l) → SafeLines ls →
    ∀ env, execLines env (readlines (ls.map fun l => if startsStartTime l then str! "start_time = " ++ t else l).flatten) =
      execLines env (expectedLines t ls) := by
  have hnl : '\n' ∉ str! "start_time = " ++ t := by
    intro hc
    rcases List.mem_append.mp hc with hc | hc
    · exact absurd hc (by decide)
    · exact ht.2.2.1 hc
  have blank_nil : IsBlank [] := by intro c hc; simp at hc
  have blank_nl : IsBlank ['\n'] := by intro c hc; simp at hc; subst hc; decide
  intro n
  induction n with
  | zero =>
    intro ls hl _ _ env
    have : ls = [] := List.length_eq_zero_iff.mp (by omega)
    subst this; rfl
  | succ n ih =>
    intro ls hl hL hS env
    cases ls with
    | nil => rfl
    | cons l ls =>
      by_cases hs : startsStartTime l = true
      · cases ls with
        | nil =>
          simp only [List.map_cons, List.map_nil, expectedLines, if_pos hs, List.flatten_cons, List.flatten_nil, List.append_nil]
          rw [readlines_end hnl (by simp)]
          have e1 := execLine_start ht blank_nil
          have e2 := execLine_start ht blank_nl
          rw [List.append_nil] at e1
          unfold execLines
          rw [e1, e2]
        | cons m ls =>
          have hb := hS.1 hs
          obtain ⟨b, hb1, hb2⟩ := hL m (by simp)
          have hm := blank_not_start hb
          simp only [List.map_cons, expectedLines, if_pos hs, hm, Bool.false_eq_true, if_false, List.flatten_cons]
          have e : (str! "start_time = " ++ t) ++ (m ++ (ls.map fun l => if startsStartTime l then str! "start_time = " ++ t else l).flatten) =
              (str! "start_time = " ++ t ++ b) ++ '\n' :: (ls.map fun l => if startsStartTime l then str! "start_time = " ++ t else l).flatten := by
            rw [hb2]; simp
          rw [e, readlines_cons (by
            intro hc
            rcases List.mem_append.mp hc with hc | hc
            · exact hnl hc
            · exact hb1 hc), List.append_assoc _ b, ← hb2]
          have hS2 : SafeLines ls := by
            cases ls with
            | nil => trivial
            | cons x ls => exact hS.2.2
          unfold execLines
          rw [execLine_start ht hb, execLine_start ht blank_nl]
          simp only [bind, Except.bind]
          conv_rhs => unfold execLines
          rw [execLine_blank hb]
          simp only [bind, Except.bind]
          exact ih ls (by simp at hl; omega) (fun l hl => hL l (by simp [hl])) hS2 _
      · obtain ⟨b, hb1, hb2⟩ := hL l (by simp)
        have hS2 : SafeLines ls := by
          cases ls with
          | nil => trivial
          | cons x ls => exact hS.2
        simp only [List.map_cons, expectedLines, if_neg hs, List.flatten_cons]
        rw [show l ++ (ls.map fun l => if startsStartTime l then str! "start_time = " ++ t else l).flatten =
          b ++ '\n' :: (ls.map fun l => if startsStartTime l then str! "start_time = " ++ t else l).flatten by rw [hb2]; simp,
          readlines_cons hb1, ← hb2]
        unfold execLines
        cases hx : execLine l with
        | error e => rfl
        | ok o =>
          cases o with
          | none => exact ih ls (by simp at hl; omega) (fun l hl => hL l (by simp [hl])) hS2 _
          | some nv => exact ih ls (by simp at hl; omega) (fun l hl => hL l (by simp [hl])) hS2 _

/-- The variables of the lines with the start time replaced. -/
theorem exec_expected {t : Str} (ht : IsValue t) : ∀ (ls : List Str) (env env' old : Dict Str Str),
    (∀ l ∈ ls, startsStartTime l = true → ∃ v, execLine l = .ok (some (str! "start_time", v))) →
    (∀ k, k ≠ str! "start_time" → get? env' k = get? env k) →
    execLines env ls = .ok old → ∃ new, execLines env' (expectedLines t ls) = .ok new ∧
      (∀ k, k ≠ str! "start_time" → get? new k = get? old k) ∧
      ((ls.any startsStartTime = true ∨ get? env' (str! "start_time") = some t) →
        (∀ l ∈ ls, startsStartTime l = false → ∀ v, execLine l ≠ .ok (some (str! "start_time", v))) → get? new (str! "start_time") = some t) := by
  have blank_nl : IsBlank ['\n'] := by intro c hc; simp at hc; subst hc; decide
  intro ls
  induction ls with
  | nil =>
    intro env env' old _ hk h
    cases h
    exact ⟨env', rfl, hk, fun h _ => by simpa using h⟩
  | cons l ls ih =>
    intro env env' old hst hk h
    by_cases hs : startsStartTime l = true
    · obtain ⟨v, hv⟩ := hst l (by simp) hs
      unfold execLines at h
      rw [hv] at h
      obtain ⟨new, n1, n2, n3⟩ := ih (env.set (str! "start_time") v) (env'.set (str! "start_time") t) old
        (fun l hl => hst l (by simp [hl])) (by
          intro k hk'
          rw [get?_set, get?_set, if_neg (by simpa using fun e => hk' (Eq.symm e)), if_neg (by simpa using fun e => hk' (Eq.symm e))]; exact hk k hk') h
      refine ⟨new, ?_, n2, fun _ hno => n3 (Or.inr (by rw [get?_set]; simp)) fun l hl => hno l (by simp [hl])⟩
      simp only [expectedLines, List.map_cons, if_pos hs]
      unfold execLines
      rw [execLine_start ht blank_nl]
      exact n1
    · unfold execLines at h
      simp only [expectedLines, List.map_cons, if_neg hs]
      cases hx : execLine l with
      | error e => rw [hx] at h; cases h
      | ok o =>
        rw [hx] at h
        cases o with
        | none =>
          obtain ⟨new, n1, n2, n3⟩ := ih env env' old (fun l hl => hst l (by simp [hl])) hk h
          refine ⟨new, ?_, n2, fun h hno => n3 (by simpa [hs] using h) fun l hl => hno l (by simp [hl])⟩
          unfold execLines
          rw [hx]; exact n1
        | some nv =>
          obtain ⟨n, v⟩ := nv
          obtain ⟨new, n1, n2, n3⟩ := ih (env.set n v) (env'.set n v) old (fun l hl => hst l (by simp [hl])) (by
            intro k hk'
            rw [get?_set, get?_set]
            split
            · rfl
            · exact hk k hk') h
          refine ⟨new, ?_, n2, fun h hno => n3 ?_ fun l hl => hno l (by simp [hl])⟩
          · unfold execLines
            rw [hx]; exact n1
          · rcases h with h | h
            · left; simpa [hs] using h
            · right
              rw [get?_set, if_neg, h]
              rintro rfl
              exact hno l (by simp) (by simpa using hs) v hx

/-- A setup file that the script can continue: whole lines, a start time, which only lines that begin with its name give, and
nothing but blanks and comments on the lines after them. -/
structure Continuable (ls : List Str) : Prop where
  lines : ∀ l ∈ ls, IsLine l
  given : ls.any startsStartTime = true
  value : ∀ l ∈ ls, startsStartTime l = true ↔ ∃ v, execLine l = .ok (some (str! "start_time", v))
  safe : SafeLines ls

/-- C102: the new setup file gives every variable the value of the old file, and the start time the last recorded time. -/
theorem C102_start_partial (ls : List Str) (h : Continuable ls) (old : Dict Str Str) (ho : execSetup ls.flatten = .ok old)
    (times : List Str) (t : Str) (ht : IsValue t) :
    ∃ content new, changeStartTime (some (times ++ [t])) ls.flatten = .ok content ∧ execSetup content = .ok new ∧
      get? new (str! "start_time") = some t ∧ ∀ k, k ≠ str! "start_time" → get? new k = get? old k := by
  unfold execSetup at ho
  rw [readlines_flatten h.lines] at ho
  obtain ⟨new, n1, n2, n3⟩ := exec_expected ht ls [] [] old (fun l hl hs => (h.value l hl).mp hs) (fun _ _ => rfl) ho
  refine ⟨replaceStart t ls.flatten, new, ?_, ?_, n3 (Or.inl h.given) ?_, n2⟩
  · simp [changeStartTime]
  · unfold replaceStart execSetup
    dsimp only
    rw [readlines_flatten h.lines, if_pos h.given, exec_replaced ht _ ls (Nat.le_refl _) h.lines h.safe, n1]
  · intro l hl hs v hv
    rw [(h.value l hl).mpr ⟨v, hv⟩] at hs
    cases hs

/-- C102: a run continued any number of times: with the start time on the last line, every new setup file is read, has the last
recorded time of the run before, and the other values of the first file. -/
theorem C102_chain_partial (ls : List Str) (hl : ∀ l ∈ ls, IsLine l ∧ startsStartTime l = false) (old : Dict Str Str)
    (ho : execSetup ls.flatten = .ok old)
    (t0 : Str) (ht0 : IsValue t0) (runs : List (List Str × Str)) (hr : ∀ r ∈ runs, IsValue r.2) :
    ∃ content new, (runs.foldlM (fun c r => changeStartTime (some (r.1 ++ [r.2])) c) (ls.flatten ++ str! "start_time = " ++ t0) : Py Str) = .ok content ∧
      execSetup content = .ok new ∧ get? new (str! "start_time") = some (((runs.map Prod.snd).getLast?).getD t0) ∧
      ∀ k, k ≠ str! "start_time" → get? new k = get? old k := by
  have rl : ∀ t, IsValue t → readlines (ls.flatten ++ (str! "start_time = " ++ t)) = ls ++ [str! "start_time = " ++ t] := by
    intro t ht
    have hnl : '\n' ∉ str! "start_time = " ++ t := by
      intro hc
      rcases List.mem_append.mp hc with hc | hc
      · exact absurd hc (by decide)
      · exact ht.2.2.1 hc
    clear ho
    induction ls with
    | nil => exact readlines_end hnl (by simp)
    | cons l ls ih =>
      obtain ⟨b, hb, e⟩ := (hl l (by simp)).1
      have e2 : (l :: ls).flatten ++ (str! "start_time = " ++ t) = b ++ '\n' :: (ls.flatten ++ (str! "start_time = " ++ t)) := by
        rw [List.flatten_cons, e, List.append_assoc, List.append_assoc]; rfl
      rw [e2, readlines_cons hb, ih fun l hl' => hl l (by simp [hl']), ← e]
      rfl
  have step : ∀ t s ts, IsValue t → changeStartTime (some (ts ++ [s])) (ls.flatten ++ (str! "start_time = " ++ t)) =
      .ok (ls.flatten ++ (str! "start_time = " ++ s)) := by
    intro t s ts ht
    simp only [changeStartTime, List.getLast?_append, List.getLast?_singleton, Option.some_or]
    unfold replaceStart
    dsimp only
    have hst : startsStartTime (str! "start_time = " ++ t) = true := by
      unfold startsStartTime; rw [List.isPrefixOf_iff_prefix]; exact ⟨str! " = " ++ t, rfl⟩
    rw [rl t ht, if_pos (by rw [List.any_append, List.any_cons, hst]; simp)]
    rw [List.map_append, List.flatten_append]
    have : ls.map (fun l => if startsStartTime l then str! "start_time = " ++ s else l) = ls := by
      conv_rhs => rw [← List.map_id ls]
      apply List.map_congr_left
      intro l hl'
      rw [(hl l hl').2]; rfl
    rw [this, List.map_cons, if_pos hst]
    simp
  have all : ∀ (runs : List (List Str × Str)) (t : Str), IsValue t → (∀ r ∈ runs, IsValue r.2) →
      (runs.foldlM (fun c r => changeStartTime (some (r.1 ++ [r.2])) c) (ls.flatten ++ (str! "start_time = " ++ t)) : Py Str) =
        .ok (ls.flatten ++ (str! "start_time = " ++ (((runs.map Prod.snd).getLast?).getD t))) := by
    intro runs
    induction runs with
    | nil => intro t _ _; rfl
    | cons r runs ih =>
      intro t ht hr
      rw [List.foldlM_cons, step t r.2 r.1 ht]
      show List.foldlM _ _ runs = _
      rw [ih r.2 (hr r (by simp)) fun r' h' => hr r' (by simp [h'])]
      simp [List.getLast?_cons]
  have hlast : IsValue (((runs.map Prod.snd).getLast?).getD t0) := by
    cases hg : (runs.map Prod.snd).getLast? with
    | none => exact ht0
    | some t =>
      obtain ⟨r, hr', rfl⟩ := List.mem_map.mp (List.mem_of_getLast? hg)
      exact hr r hr'
  refine ⟨_, old.set (str! "start_time") (((runs.map Prod.snd).getLast?).getD t0), by rw [List.append_assoc]; exact all runs t0 ht0 hr, ?_, ?_, ?_⟩
  · unfold execSetup at ho ⊢
    rw [rl _ hlast]
    rw [readlines_flatten fun l hl' => (hl l hl').1] at ho
    have app : ∀ (ls : List Str) (env : Dict Str Str) (x : Str), execLines env (ls ++ [x]) = (execLines env ls >>= fun e => execLines e [x]) := by
      intro ls
      induction ls with
      | nil => intro env x; rfl
      | cons l ls ih =>
        intro env x
        rw [List.cons_append]
        unfold execLines
        cases execLine l with
        | error e => rfl
        | ok o =>
          cases o with
          | none => exact ih env x
          | some nv => exact ih _ x
    rw [app, ho]
    have e1 := execLine_start (rest := []) hlast (by intro c hc; simp at hc)
    rw [List.append_nil] at e1
    show execLines old [_] = _
    unfold execLines
    rw [e1]; rfl
  · rw [get?_set]; simp
  · intro k hk
    rw [get?_set, if_neg (by simpa using fun e => hk (Eq.symm e))]

/-- C102 fails for a start time followed by another setting: the two lines become one, and the new file cannot be read. -/
theorem C102_next_line_refuted (t name v : Str) (ht : IsValue t) (hn : ∀ c ∈ name, isWord c = true) (hv : IsValue v)
    (hs : startsStartTime name = false) (times : List Str) :
    ∃ content, changeStartTime (some (times ++ [t])) (str! "start_time = 0.0\n" ++ (name ++ str! " = " ++ v ++ ['\n'])) = .ok content ∧
      execSetup content = .error .SyntaxError := by
  have hname : ∀ c ∈ name, c ≠ '\n' ∧ c ≠ '#' := by
    intro c hc
    have := hn c hc
    constructor <;> (rintro rfl; revert this; decide)
  obtain ⟨h0, h1, h2, h3, h4⟩ := ht
  have nl : '\n' ∉ name ++ str! " = " ++ v := by
    simp only [List.mem_append]
    rintro ((hc | hc) | hc)
    · exact (hname _ hc).1 rfl
    · exact absurd hc (by decide)
    · exact hv.2.2.1 hc
  have hns : startsStartTime (name ++ str! " = " ++ v ++ ['\n']) = false := by
    cases hb : startsStartTime (name ++ str! " = " ++ v ++ ['\n']) with
    | false => rfl
    | true =>
      unfold startsStartTime at hb hs
      rw [List.isPrefixOf_iff_prefix] at hb
      have hlen : (str! "start_time").length ≤ name.length ∨ name.length < (str! "start_time").length := by omega
      rcases hlen with hlen | hlen
      · rw [List.append_assoc, List.append_assoc] at hb
        have := List.prefix_of_prefix_length_le hb (List.prefix_append name _) hlen
        rw [List.isPrefixOf_iff_prefix.mpr this] at hs; cases hs
      · rw [List.append_assoc, List.append_assoc] at hb
        have hb' : name ++ [' '] <+: name ++ (str! " = " ++ (v ++ ['\n'])) := ⟨str! "= " ++ (v ++ ['\n']), by simp⟩
        have := List.prefix_of_prefix_length_le hb' hb (by simp at hlen ⊢; omega)
        have := this.subset (List.mem_append_right name (List.mem_singleton.mpr rfl))
        exact absurd this (by decide)
  refine ⟨str! "start_time = " ++ t ++ (name ++ str! " = " ++ v ++ ['\n']), ?_, ?_⟩
  · have e : readlines (str! "start_time = 0.0\n" ++ (name ++ str! " = " ++ v ++ ['\n'])) =
        [str! "start_time = 0.0\n", name ++ str! " = " ++ v ++ ['\n']] := by
      have := readlines_cons (b := str! "start_time = 0.0") (s := name ++ str! " = " ++ v ++ ['\n']) (by decide)
      rw [readlines_cons nl] at this
      exact this
    simp only [changeStartTime, List.getLast?_append, List.getLast?_singleton, Option.some_or]
    unfold replaceStart
    rw [e]
    dsimp only
    have h1 : startsStartTime (str! "start_time = 0.0\n") = true := by decide
    rw [List.map_cons, List.map_cons, hns, if_pos h1, List.any_cons, h1]
    simp
  · unfold execSetup
    have nl2 : '\n' ∉ str! "start_time = " ++ t ++ (name ++ str! " = " ++ v) := by
      rw [List.mem_append, List.mem_append]
      rintro ((hc | hc) | hc)
      · exact absurd hc (by decide)
      · exact h2 hc
      · exact nl hc
    rw [show str! "start_time = " ++ t ++ (name ++ str! " = " ++ v ++ ['\n']) = (str! "start_time = " ++ t ++ (name ++ str! " = " ++ v)) ++ '\n' :: [] by
      simp, readlines_cons nl2]
    have : execLine (str! "start_time = " ++ t ++ (name ++ str! " = " ++ v) ++ ['\n']) = .error .SyntaxError := by
      unfold execLine
      have e : (str! "start_time = " ++ t ++ (name ++ str! " = " ++ v) ++ ['\n']).takeWhile (· ≠ '#') =
          str! "start_time = " ++ t ++ (name ++ str! " = " ++ v) ++ ['\n'] := by
        have := takeWhile_append_all (p := (· ≠ '#')) (a := str! "start_time = " ++ t ++ (name ++ str! " = " ++ v) ++ ['\n']) (b := []) (by
          intro c hc
          simp only [ne_eq, decide_not, Bool.not_eq_eq_eq_not, Bool.not_true, decide_eq_false_iff_not]
          rintro rfl
          simp only [List.mem_append] at hc
          rcases hc with ((hc | hc) | (hc | hc) | hc) | hc
          · exact absurd hc (by decide)
          · exact h4 hc
          · exact (hname _ hc).2 rfl
          · exact absurd hc (by decide)
          · exact hv.2.2.2.2 hc
          · exact absurd hc (by decide))
        simpa using this
      rw [e]
      dsimp only
      rw [if_neg (by
        exact strip_cons_ne (by decide))]
      have e2 : (str! "start_time = " ++ t ++ (name ++ str! " = " ++ v) ++ ['\n']).dropWhile (· ≠ '=') =
          '=' :: (str! " " ++ t ++ (name ++ str! " = " ++ v) ++ ['\n']) := rfl
      rw [e2]
      dsimp only
      rw [if_neg]
      rintro ⟨-, -, -, hc⟩
      exact hc (by simp)
    unfold execLines
    rw [this]
    rfl

/-- The hypotheses are met: a start time between a comment and an empty line, and texts of numbers. -/
def exContinue : List Str := [str! "temperature = 500\n", str! "# times\n", str! "start_time = 0.0\n", str! "\n", str! "nstep = 100\n"]

instance (l : Str) : Decidable (IsBlank l) := inferInstanceAs (Decidable (∀ c ∈ _, _))

theorem exContinue_ok : Continuable exContinue := by
  refine ⟨?_, by decide, ?_, ?_⟩
  · intro l hl
    simp only [exContinue, List.mem_cons, List.not_mem_nil, or_false] at hl
    rcases hl with rfl | rfl | rfl | rfl | rfl
    · exact ⟨str! "temperature = 500", by decide, rfl⟩
    · exact ⟨str! "# times", by decide, rfl⟩
    · exact ⟨str! "start_time = 0.0", by decide, rfl⟩
    · exact ⟨[], by decide, rfl⟩
    · exact ⟨str! "nstep = 100", by decide, rfl⟩
  · intro l hl
    simp only [exContinue, List.mem_cons, List.not_mem_nil, or_false] at hl
    rcases hl with rfl | rfl | rfl | rfl | rfl
    · exact ⟨fun h => absurd h (by decide), fun ⟨v, hv⟩ => by cases hv⟩
    · exact ⟨fun h => absurd h (by decide), fun ⟨v, hv⟩ => by cases hv⟩
    · exact ⟨fun _ => ⟨str! "0.0", by decide⟩, fun _ => by decide⟩
    · exact ⟨fun h => absurd h (by decide), fun ⟨v, hv⟩ => by cases hv⟩
    · exact ⟨fun h => absurd h (by decide), fun ⟨v, hv⟩ => by cases hv⟩
  · exact ⟨by decide, by decide, by decide, by decide, trivial⟩

example : IsValue (str! "12.5e-3") := ⟨by decide, ⟨by simp; decide, by simp; decide⟩, by decide, by decide, by decide⟩

example : changeStartTime (some [str! "0.0", str! "1.5"]) exContinue.flatten =
    .ok (str! "temperature = 500\n# times\nstart_time = 1.5\nnstep = 100\n") ∧
    execSetup (str! "temperature = 500\n# times\nstart_time = 1.5\nnstep = 100\n") =
      .ok [(str! "temperature", str! "500"), (str! "start_time", str! "1.5"), (str! "nstep", str! "100")] := by
  decide +kernel

/-- `C102_chain_partial`: two continuations. -/
example : ([([str! "0.0"], str! "1.5"), ([], str! "3.0")].foldlM (fun c r => changeStartTime (some (r.1 ++ [r.2])) c)
    ((exContinue.filter fun l => ! startsStartTime l).flatten ++ str! "start_time = " ++ str! "0.0") : Py Str) =
    .ok (str! "temperature = 500\n# times\n\nnstep = 100\nstart_time = 3.0") := by
  decide +kernel

/-- `C102_next_line_refuted`: its hypotheses. -/
example : (∀ c ∈ str! "temperature", isWord c = true) ∧ startsStartTime (str! "temperature") = false := by decide

/-- C102 fails without a start time in the setup file: the new run begins at zero; if the file also has no line end, it cannot
be read. -/
theorem C102_missing_refuted : changeStartTime (some [str! "1.5"]) (str! "nstep = 100\n") = .ok (str! "nstep = 100\nstart_time = 0.0\n") ∧
    execSetup (str! "nstep = 100\nstart_time = 0.0\n") = .ok [(str! "nstep", str! "100"), (str! "start_time", str! "0.0")] ∧
    changeStartTime (some [str! "1.5"]) (str! "nstep = 100") = .ok (str! "nstep = 100start_time = 0.0\n") ∧
    execSetup (str! "nstep = 100start_time = 0.0\n") = .error .SyntaxError := by
  decide +kernel

/-- C102 fails for other names that begin like the start time: their line is lost. -/
theorem C102_other_name_refuted : changeStartTime (some [str! "1.5"]) (str! "start_time_unit = 1\n") = .ok (str! "start_time = 1.5") ∧
    execSetup (str! "start_time_unit = 1\n") = .ok [(str! "start_time_unit", str! "1")] ∧
    execSetup (str! "start_time = 1.5") = .ok [(str! "start_time", str! "1.5")] := by
  decide +kernel

/-- C102: without a recorded time the setup file is not touched, and the error is shown. -/
theorem C102_no_times (content : Str) : changeStartTime none content = .error .KeyError ∧ changeStartTime (some []) content = .error .IndexError :=
  ⟨rfl, rfl⟩

/-- C102: the new run begins with the configuration recorded last. -/
theorem C102_configuration (types : List (List Str)) (last : List Str) : continueTypes (types ++ [last]) = .ok last := by
  simp [continueTypes]

example : continueTypes [[str! "V", str! "V"], [str! "CO", str! "V"]] = .ok [str! "CO", str! "V"] := C102_configuration [_] _

/-! ### The theorems at these cases -/

theorem exTime_value : IsValue (str! "12.5e-3") := ⟨by decide, ⟨by simp; decide, by simp; decide⟩, by decide, by decide, by decide⟩

example := C102_start_partial exContinue exContinue_ok
  [(str! "temperature", str! "500"), (str! "start_time", str! "0.0"), (str! "nstep", str! "100")] (by decide +kernel) [str! "0.0"] (str! "12.5e-3") exTime_value

example := C102_chain_partial [str! "temperature = 500\n", str! "nstep = 100\n"] (by
    intro l hl
    simp only [List.mem_cons, List.not_mem_nil, or_false] at hl
    rcases hl with rfl | rfl
    · exact ⟨⟨str! "temperature = 500", by decide, rfl⟩, by decide⟩
    · exact ⟨⟨str! "nstep = 100", by decide, rfl⟩, by decide⟩)
  [(str! "temperature", str! "500"), (str! "nstep", str! "100")] (by decide +kernel) (str! "12.5e-3") exTime_value
  [([str! "0.0"], str! "12.5e-3"), ([], str! "12.5e-3")] (by simpa using exTime_value)

example := C102_next_line_refuted (str! "12.5e-3") (str! "temperature") (str! "12.5e-3") exTime_value (by decide) exTime_value (by decide) []

end Verif
