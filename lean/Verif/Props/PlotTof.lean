import Mathlib.Data.List.TakeWhile
import Verif.Model.PlotScripts
import Verif.Props.Rxn
import Verif.Props.DataFile
import Verif.Props.Network
import Mathlib.Tactic.Linarith
import Mathlib.Tactic.Ring
import Mathlib.Data.Rat.Defs
/- C100, C101: what the plotting scripts show of a lattice run. -/
namespace Verif
open Dict

/-! ## C100: turnover frequencies -/

/-- The characters taken off a label. -/
def isMark (c : Char) : Prop := c = '(' ∨ c = ')' ∨ c = '-' ∨ c = '<' ∨ c = '>'

theorem infix_sep {p a b : Str} {c : Char} (hc : c ∉ p) (h : p <:+: a ++ c :: b) : p <:+: a ∨ p <:+: b := by
  obtain ⟨s, t, e⟩ := h
  rw [List.append_assoc] at e
  rcases List.append_eq_append_iff.mp e with ⟨a', ha, hb⟩ | ⟨c', hs, hb⟩
  · rcases List.append_eq_append_iff.mp hb with ⟨a'', h1, h2⟩ | ⟨c'', h1, h2⟩
    · left; exact ⟨s, a'', by rw [ha, h1, List.append_assoc]⟩
    · cases c'' with
      | nil => left; exact ⟨s, [], by rw [ha, h1]; simp⟩
      | cons x c'' =>
        injection h2 with e1 _
        exact absurd (by rw [h1, e1]; simp) hc
  · cases c' with
    | nil =>
      cases p with
      | nil => left; exact ⟨[], a, rfl⟩
      | cons x p =>
        injection hb with e1 _
        exact absurd (by rw [e1]; simp) hc
    | cons x c' =>
      injection hb with _ e2
      right; exact ⟨c', t, by rw [e2, List.append_assoc]; rfl⟩

theorem infix_join {p : Str} (h1 : ' ' ∉ p) (h2 : '+' ∉ p) (hp : p ≠ []) {l : List Str} (h : p <:+: joinWith (str! " + ") l) :
    ∃ x ∈ l, p <:+: x := by
  induction l with
  | nil => exact absurd (List.infix_nil.mp h) hp
  | cons x l ih =>
    cases l with
    | nil => exact ⟨x, by simp, h⟩
    | cons y l =>
      simp only [joinWith] at h
      have h : p <:+: x ++ ' ' :: '+' :: ' ' :: joinWith (str! " + ") (y :: l) := by simpa using h
      rcases infix_sep h1 h with h | h
      · exact ⟨x, by simp, h⟩
      rcases infix_sep (a := []) h2 h with h | h
      · exact absurd (List.infix_nil.mp h) hp
      rcases infix_sep (a := []) h1 h with h | h
      · exact absurd (List.infix_nil.mp h) hp
      obtain ⟨z, hz, hz'⟩ := ih h
      exact ⟨z, by simp only [List.mem_cons] at hz ⊢; exact Or.inr hz, hz'⟩

theorem infix_join_of {p x : Str} {sep : Str} {l : List Str} (hx : x ∈ l) (h : p <:+: x) : p <:+: joinWith sep l := by
  induction l with
  | nil => cases hx
  | cons y l ih =>
    cases l with
    | nil =>
      have : x = y := by simpa using hx
      subst this; exact h
    | cons z l =>
      simp only [joinWith]
      rcases List.mem_cons.mp hx with rfl | hx
      · rw [List.append_assoc]; exact h.trans (List.prefix_append _ _).isInfix
      · exact (ih hx).trans (List.suffix_append _ _).isInfix

/-- The last state of a reaction, and the first. -/
def Spec.Rxn.lastState : Spec.Rxn → Spec.State
  | .two _ b => b
  | .three _ _ c => c
def Spec.Rxn.firstState : Spec.Rxn → Spec.State
  | .two a _ => a
  | .three a _ _ => a

theorem site_not_mark {c : Char} (h : isSiteChar c = true) : ¬ isMark c := by
  intro hm
  rcases hm with rfl | rfl | rfl | rfl | rfl <;> exact absurd h (by decide)

theorem state_last {s : Spec.State} (h : s.ok = true) : ∃ c, s.text.getLast? = some c ∧ isSiteChar c = true := by
  obtain ⟨h1, h2⟩ := state_ok_parts h
  have hl : s.map Spec.Formula.text ≠ [] := by simpa using h1
  have hmem := List.getLast_mem hl
  obtain ⟨f, hf, he⟩ := List.mem_map.mp hmem
  obtain ⟨-, p2, p3⟩ := formula_ok_parts (h2 f hf)
  refine ⟨f.site.getLast p2, ?_, p3 _ (List.getLast_mem p2)⟩
  unfold Spec.State.text
  rw [joinWith_getLast hl (by simp; intro f _; exact formula_text_ne), ← he]
  have : f.text = (Spec.numText f.coef ++ f.sp.text ++ '_' :: Spec.numText f.num) ++ f.site := by
    simp [Spec.Formula.text, Spec.Formula.speciesSite]
  rw [this, List.getLast?_append, List.getLast?_eq_some_getLast p2]
  rfl

theorem dropWhile_append_left {p : Char → Bool} {a b : Str} (h : a.dropWhile p ≠ []) : (a ++ b).dropWhile p = a.dropWhile p ++ b := by
  induction a with
  | nil => simp at h
  | cons c a ih =>
    by_cases hc : p c = true
    · simp only [List.dropWhile, hc, List.cons_append] at h ⊢
      exact ih h
    · have : p c = false := by simpa using hc
      simp [List.dropWhile, this]

/-- The beginning of a state stays a state text without its leading dashes. -/
theorem state_drop {s : Spec.State} (h : s.ok = true) {p : Char → Bool} (hp : ∀ c, p c = true → isMark c) :
    s.text.dropWhile p ≠ [] ∧ (∀ c ∈ s.text.dropWhile p, notAngle c = true) ∧ Trim (s.text.dropWhile p) := by
  obtain ⟨h1, h2⟩ := state_ok_parts h
  have sub : ∀ c ∈ s.text.dropWhile p, c ∈ s.text := fun c hc => (List.dropWhile_sublist _).subset hc
  cases s with
  | nil => exact absurd rfl h1
  | cons f fs =>
    obtain ⟨rest, hrest⟩ : ∃ rest, Spec.State.text (f :: fs) = f.text ++ rest := by
      cases fs with
      | nil => exact ⟨[], by simp [Spec.State.text, joinWith]⟩
      | cons g gs => exact ⟨str! " + " ++ joinWith (str! " + ") ((g :: gs).map Spec.Formula.text), by simp [Spec.State.text, joinWith]⟩
    have hne : f.text.dropWhile p ≠ [] := by
      intro e
      have : ∀ c ∈ f.text, p c = true := by
        intro c hc
        have := List.takeWhile_append_dropWhile (p := p) (l := f.text)
        rw [e, List.append_nil] at this
        rw [← this] at hc
        exact List.mem_takeWhile_imp hc
      have := hp _ (this '_' (by simp [Spec.Formula.text, Spec.Formula.speciesSite]))
      rcases this with h | h | h | h | h <;> exact absurd h (by decide)
    have e := dropWhile_append_left (b := rest) hne
    rw [← hrest] at e
    refine ⟨by rw [e]; simp [hne], fun c hc => state_text_no_angle h c (sub c hc), ?_, ?_⟩
    · intro c hc
      rw [e] at hc
      have : c ∈ f.text := by
        have hc' : (f.text.dropWhile p).head? = some c := by
          cases hd : f.text.dropWhile p with
          | nil => exact absurd hd hne
          | cons x xs => rw [hd] at hc; simpa using hc
        exact (List.dropWhile_sublist _).subset (List.mem_of_head? hc')
      exact (formula_text_chars (h2 f (by simp)) c this).1
    · intro c hc
      apply (state_text_trim h).2
      obtain ⟨w, hw⟩ := dropWhile_suffix_split p (Spec.State.text (f :: fs))
      rw [hw, List.getLast?_append, hc]; rfl

theorem stripSet_append {chars a e : Str} {c : Char} (he : ∀ x ∈ e, x ∈ chars) (hne : a.dropWhile (decide <| · ∈ chars) ≠ [])
    (hl : a.getLast? = some c) (hc : c ∉ chars) : stripSet chars (a ++ e) = a.dropWhile (decide <| · ∈ chars) := by
  unfold stripSet
  rw [dropWhile_append_left hne, List.reverse_append, dropWhile_append_of_all (by simpa using he)]
  rw [dropWhile_eq_self, List.reverse_reverse]
  intro d hd
  rw [List.head?_reverse] at hd
  obtain ⟨w, hw⟩ := dropWhile_suffix_split (decide <| · ∈ chars) a
  have : a.getLast? = some d := by rw [hw, List.getLast?_append, hd]; rfl
  rw [hl] at this
  cases this
  simpa using hc

/-- A process of a lattice model: reaction, the way it is written, and direction. -/
structure ShownProcess where
  rxn : Spec.Rxn
  r1 : Bool
  r2 : Bool
  forward : Bool

/-- Its label. -/
def ShownProcess.label (q : ShownProcess) : Str := q.rxn.text q.r1 q.r2 ++ if q.forward then str! "(->)" else str! "(<-)"

theorem final_of_label {q : ShownProcess} (h : q.rxn.ok = true) :
    ∃ r, labelReaction q.label = some (q.forward, r) ∧ finalText r = .ok q.rxn.lastState.text := by
  obtain ⟨r, r1, r2, fwd⟩ := q
  dsimp only at h ⊢
  have key : ∀ (chars e : Str), (∀ x ∈ e, x ∈ chars) → (∀ x ∈ chars, isMark x) →
      finalText (stripSet chars (r.text r1 r2 ++ e)) = .ok r.lastState.text := by
    intro chars e he hm
    have hp : ∀ c, decide (c ∈ chars) = true → isMark c := fun c hc => hm c (by simpa using hc)
    cases r with
    | two a b =>
      have ha : a.ok = true := rxn_ok_states h a (by simp [Spec.Rxn.states])
      have hb : b.ok = true := rxn_ok_states h b (by simp [Spec.Rxn.states])
      obtain ⟨d1, d2, d3⟩ := state_drop ha hp
      obtain ⟨c, c1, c2⟩ := state_last hb
      have e1 : Spec.Rxn.text r1 r2 (.two a b) = a.text ++ (Spec.arrowText r1 ++ b.text) := by simp [Spec.Rxn.text]
      have dd : (Spec.Rxn.text r1 r2 (.two a b)).dropWhile (decide <| · ∈ chars)
          = a.text.dropWhile (decide <| · ∈ chars) ++ (Spec.arrowText r1 ++ b.text) := by
        rw [e1]; exact dropWhile_append_left d1
      rw [stripSet_append (c := c) he (by rw [dd]; simp [d1]) (by rw [e1, List.getLast?_append, List.getLast?_append, c1]; rfl)
        (fun hc => site_not_mark c2 (hm c hc)), dd]
      unfold finalText
      rw [eqnStates_two d2 (state_text_no_angle hb) d3 (state_text_trim hb)]
      rfl
    | three a b c =>
      have ha : a.ok = true := rxn_ok_states h a (by simp [Spec.Rxn.states])
      have hb : b.ok = true := rxn_ok_states h b (by simp [Spec.Rxn.states])
      have hc : c.ok = true := rxn_ok_states h c (by simp [Spec.Rxn.states])
      obtain ⟨d1, d2, d3⟩ := state_drop ha hp
      obtain ⟨x, c1, c2⟩ := state_last hc
      have e1 : Spec.Rxn.text r1 r2 (.three a b c) = a.text ++ (Spec.arrowText r1 ++ (b.text ++ (Spec.arrowText r2 ++ c.text))) := by
        simp [Spec.Rxn.text]
      have dd : (Spec.Rxn.text r1 r2 (.three a b c)).dropWhile (decide <| · ∈ chars)
          = a.text.dropWhile (decide <| · ∈ chars) ++ (Spec.arrowText r1 ++ (b.text ++ (Spec.arrowText r2 ++ c.text))) := by
        rw [e1]; exact dropWhile_append_left d1
      rw [stripSet_append (c := x) he (by rw [dd]; simp [d1])
        (by rw [e1, List.getLast?_append, List.getLast?_append, List.getLast?_append, List.getLast?_append, c1]; rfl)
        (fun hc => site_not_mark c2 (hm x hc)), dd]
      unfold finalText
      rw [eqnStates_three d2 (state_text_no_angle hb) (state_text_no_angle hc) d3 (state_text_trim hb) (state_text_trim hc)]
      rfl
  unfold ShownProcess.label labelReaction
  dsimp only
  cases fwd with
  | true =>
    simp only [if_true]
    rw [if_pos (show str! "(->)" <:+ _ from List.suffix_append _ _)]
    exact ⟨_, rfl, key _ _ (fun x hx => hx) (by intro x hx; simp at hx; rcases hx with rfl | rfl | rfl | rfl <;> simp [isMark])⟩
  | false =>
    have : ¬ str! "(->)" <:+ r.text r1 r2 ++ str! "(<-)" := by
      intro hs
      have := List.suffix_of_suffix_length_le hs (List.suffix_append (r.text r1 r2) (str! "(<-)")) (by simp)
      exact absurd (this.eq_of_length (by rfl)) (by decide)
    simp only [Bool.false_eq_true, if_false]
    rw [if_neg this, if_pos (show str! "(<-)" <:+ _ from List.suffix_append _ _)]
    exact ⟨_, rfl, key _ _ (fun x hx => hx) (by intro x hx; simp at hx; rcases hx with rfl | rfl | rfl | rfl <;> simp [isMark])⟩

/-- How many molecules of a species a state holds. -/
def molecules (p : Str) (s : Spec.State) : Nat := (s.map fun f => if f.speciesSite = p then f.coefficient else 0).sum

/-- The molecules of a species that a reaction makes. -/
def netMade (p : Str) (r : Spec.Rxn) : Int := (molecules p r.lastState : Int) - molecules p r.firstState

section
variable {K : Type} [Field K]

/-- Turnover frequency: the molecules made by all processes at these rates. -/
def shownTurnover (p : Str) (ps : List ShownProcess) (rates : List K) : K :=
  ((ps.zip rates).map fun x => (if x.1.forward then 1 else -1) * (netMade p x.1.rxn : K) * x.2).sum

/-- What the script adds up: the rates of processes with the text of the product in their last state. -/
def textTurnover (p : Str) (ps : List ShownProcess) (rates : List K) : K :=
  ((ps.zip rates).map fun x => (if x.1.forward then 1 else -1) * (if p <:+: x.1.rxn.lastState.text then 1 else 0) * x.2).sum

theorem indices_sums (p : Str) (ps : List ShownProcess) (h : ∀ q ∈ ps, q.rxn.ok = true) : ∀ idx : Nat,
    ∃ f r, tofIndices p idx (ps.map ShownProcess.label) = .ok (f, r) ∧
      ∀ row : List K, row.length = idx + ps.length →
        ∃ x y : K, (∀ a : K, f.foldlM (fun s i => do pure (s + (← rateAt (.nums row) i))) a = (.ok (a + x) : Py K)) ∧
          (∀ a : K, r.foldlM (fun s i => do pure (s - (← rateAt (.nums row) i))) a = (.ok (a - y) : Py K)) ∧
          x - y = textTurnover p ps (row.drop idx) := by
  induction ps with
  | nil =>
    intro idx
    refine ⟨[], [], rfl, fun row _ => ⟨0, 0, fun a => by simp [pure, Except.pure], fun a => by simp [pure, Except.pure], by simp [textTurnover]⟩⟩
  | cons q ps ih =>
    intro idx
    obtain ⟨f, r, e, hs⟩ := ih (fun q' hq => h q' (by simp [hq])) (idx + 1)
    obtain ⟨rx, l1, l2⟩ := final_of_label (h q (by simp))
    have e0 : tofIndices p idx ((q :: ps).map ShownProcess.label) =
        .ok (if p <:+: q.rxn.lastState.text then if q.forward then (idx :: f, r) else (f, idx :: r) else (f, r)) := by
      rw [List.map_cons]
      unfold tofIndices
      rw [l1]
      dsimp only
      rw [l2, e]
      show (if p <:+: q.rxn.lastState.text then if q.forward then pure (idx :: f, r) else pure (f, idx :: r) else pure (f, r) : Py _) = _
      split
      · split <;> rfl
      · rfl
    have get : ∀ row : List K, row.length = idx + (q :: ps).length → ∃ z, row[idx]? = some z ∧ row.drop idx = z :: row.drop (idx + 1) := by
      intro row hrow
      have hlt : idx < row.length := by rw [hrow]; simp
      exact ⟨row[idx], by simp [hlt], List.drop_eq_getElem_cons hlt⟩
    by_cases hp : p <:+: q.rxn.lastState.text
    · cases hq : q.forward with
      | true =>
        refine ⟨idx :: f, r, by rw [e0, if_pos hp, hq]; rfl, fun row hrow => ?_⟩
        obtain ⟨x, y, hx, hy, hxy⟩ := hs row (by rw [hrow]; simp; omega)
        obtain ⟨z, hz, hd⟩ := get row hrow
        refine ⟨z + x, y, fun a => ?_, hy, ?_⟩
        · have : rateAt (.nums row) idx = .ok z := by simp [rateAt, hz]
          rw [List.foldlM_cons, this]
          show List.foldlM _ (a + z) f = _
          rw [hx, add_assoc]
        · rw [hd]
          simp only [textTurnover, List.zip_cons_cons, List.map_cons, List.sum_cons, hq, if_pos hp, if_true] at hxy ⊢
          rw [← hxy]; ring
      | false =>
        refine ⟨f, idx :: r, by rw [e0, if_pos hp, hq]; rfl, fun row hrow => ?_⟩
        obtain ⟨x, y, hx, hy, hxy⟩ := hs row (by rw [hrow]; simp; omega)
        obtain ⟨z, hz, hd⟩ := get row hrow
        refine ⟨x, z + y, hx, fun a => ?_, ?_⟩
        · have : rateAt (.nums row) idx = .ok z := by simp [rateAt, hz]
          rw [List.foldlM_cons, this]
          show List.foldlM _ (a - z) r = _
          rw [hy]; congr 1; ring
        · rw [hd]
          simp only [textTurnover, List.zip_cons_cons, List.map_cons, List.sum_cons, hq, if_pos hp, Bool.false_eq_true, if_false] at hxy ⊢
          rw [← hxy]; ring
    · refine ⟨f, r, by rw [e0, if_neg hp], fun row hrow => ?_⟩
      obtain ⟨x, y, hx, hy, hxy⟩ := hs row (by rw [hrow]; simp; omega)
      obtain ⟨z, hz, hd⟩ := get row hrow
      refine ⟨x, y, hx, hy, ?_⟩
      rw [hd]
      simp only [textTurnover, List.zip_cons_cons, List.map_cons, List.sum_cons, if_neg hp] at hxy ⊢
      rw [← hxy]; ring

theorem numText_plain {n : Option Nat} : ∀ c ∈ Spec.numText n, isDigit c = true := numText_digits n

theorem label_plain {q : ShownProcess} (h : q.rxn.ok = true) : PlainText q.label := by
  have hs : ∀ s ∈ q.rxn.states, ∀ c ∈ s.text, c ≠ '\'' ∧ c ≠ '\\' ∧ c ≠ '\n' := by
    intro s hs c hc
    obtain ⟨-, h2⟩ := state_ok_parts (rxn_ok_states h s hs)
    rcases joinWith_mem hc with hc | ⟨x, hx, hc⟩
    · simp at hc; rcases hc with rfl | rfl | rfl <;> decide
    · obtain ⟨f, hf, rfl⟩ := List.mem_map.mp hx
      obtain ⟨p1, -, p3⟩ := formula_ok_parts (h2 f hf)
      obtain ⟨p4, -⟩ := species_chars p1
      have key : ∀ c, (isSpChar c = true ∨ isSiteChar c = true) → c ≠ '\'' ∧ c ≠ '\\' ∧ c ≠ '\n' := by
        intro c hc
        refine ⟨?_, ?_, ?_⟩ <;> rintro rfl <;> exact absurd hc (by decide)
      simp only [Spec.Formula.text, Spec.Formula.speciesSite, List.mem_append, List.mem_cons] at hc
      rcases hc with hc | hc | hc | hc | hc
      · exact key c (Or.inl ((isSpChar_iff c).mpr (Or.inr (Or.inl (numText_digits _ c hc)))))
      · exact key c (Or.inl (p4 c hc).1)
      · subst hc; decide
      · exact key c (Or.inl ((isSpChar_iff c).mpr (Or.inr (Or.inl (numText_digits _ c hc)))))
      · exact key c (Or.inr (p3 c hc))
  have ha : ∀ b, ∀ c ∈ Spec.arrowText b, c ≠ '\'' ∧ c ≠ '\\' ∧ c ≠ '\n' := by
    intro b c hc
    cases b <;> simp [Spec.arrowText] at hc <;> aesop
  intro c hc
  unfold ShownProcess.label at hc
  rcases List.mem_append.mp hc with hc | hc
  · obtain ⟨r, r1, r2, fwd⟩ := q
    cases r with
    | two a b =>
      simp only [Spec.Rxn.text, List.mem_append] at hc
      rcases hc with (hc | hc) | hc
      · exact hs a (by simp [Spec.Rxn.states]) c hc
      · exact ha _ c hc
      · exact hs b (by simp [Spec.Rxn.states]) c hc
    | three a b d =>
      simp only [Spec.Rxn.text, List.mem_append] at hc
      rcases hc with (hc | hc) | (hc | hc) | hc
      · exact hs a (by simp [Spec.Rxn.states]) c hc
      · exact ha _ c hc
      · exact hs b (by simp [Spec.Rxn.states]) c hc
      · exact ha _ c hc
      · exact hs d (by simp [Spec.Rxn.states]) c hc
  · split at hc <;> simp at hc <;> aesop

/-- C100: of the file of a lattice run with these processes and records, the script shows at every recorded time the sum
over the processes in whose last state the text of the product occurs. -/
theorem C100_shown (p : Str) (ps : List ShownProcess) (h : ∀ q ∈ ps, q.rxn.ok = true) (bufferSize : Nat)
    (records : List (K × List K)) (hr : ∀ x ∈ records, x.2.length = ps.length) :
    plotTof p (tofFile (ps.map ShownProcess.label) bufferSize records) =
      .ok (records.map fun x => .num x.1, records.map fun x => textTurnover p ps x.2) := by
  obtain ⟨env, e1, e2, e3, e4⟩ := C57_tof_file (ps.map ShownProcess.label) bufferSize records
    (fun s hs => by obtain ⟨q, hq, rfl⟩ := List.mem_map.mp hs; exact label_plain (h q hq))
  obtain ⟨f, r, i1, i2⟩ := indices_sums (K := K) p ps h 0
  unfold plotTof
  rw [e1]
  simp only [bind, Except.bind, localVar, e2, e3, e4]
  have hl : ((ps.map ShownProcess.label).map (Elem.str (α := K))).mapM labelOf = .ok (ps.map ShownProcess.label) := by
    rw [List.mapM_map]
    exact (mapM_ok (g := id) (fun x _ => rfl)).trans (by simp)
  simp only [hl, i1]
  have hrow : (records.map fun x => Elem.nums x.2).mapM (tofOfRow f r) = .ok (records.map fun x => textTurnover p ps x.2) := by
    rw [List.mapM_map]
    apply mapM_ok
    intro x hx
    obtain ⟨a, b, h1, h2, h3⟩ := i2 x.2 (by rw [hr x hx]; simp)
    unfold tofOfRow
    show (List.foldlM _ 0 f >>= fun a => List.foldlM _ a r) = _
    rw [h1 0]
    show List.foldlM _ (0 + a) r = _
    rw [h2, zero_add, h3]; simp
  simp only [hrow]
  simp [pure, Except.pure]

/-- C100: a process whose label has no direction is passed over; the others keep their own rates. -/
theorem C100_unmarked (p u : Str) (hu : PlainText u) (h1 : ¬ str! "(->)" <:+ u) (h2 : ¬ str! "(<-)" <:+ u) (ps : List ShownProcess)
    (h : ∀ q ∈ ps, q.rxn.ok = true) (bufferSize : Nat) (records : List (K × K × List K)) (hr : ∀ x ∈ records, x.2.2.length = ps.length) :
    plotTof p (tofFile (u :: ps.map ShownProcess.label) bufferSize (records.map fun x => (x.1, x.2.1 :: x.2.2))) =
      .ok (records.map fun x => .num x.1, records.map fun x => textTurnover p ps x.2.2) := by
  obtain ⟨env, e1, e2, e3, e4⟩ := C57_tof_file (u :: ps.map ShownProcess.label) bufferSize (records.map fun x => (x.1, x.2.1 :: x.2.2))
    (fun s hs => by
      rcases List.mem_cons.mp hs with rfl | hs
      · exact hu
      · obtain ⟨q, hq, rfl⟩ := List.mem_map.mp hs
        exact label_plain (h q hq))
  obtain ⟨f, r, i1, i2⟩ := indices_sums (K := K) p ps h 1
  unfold plotTof
  rw [e1]
  simp only [bind, Except.bind, localVar, e2, e3, e4]
  have hl : ((u :: ps.map ShownProcess.label).map (Elem.str (α := K))).mapM labelOf = .ok (u :: ps.map ShownProcess.label) := by
    rw [List.mapM_map]
    exact (mapM_ok (g := id) (fun x _ => rfl)).trans (by simp)
  have hi : tofIndices p 0 (u :: ps.map ShownProcess.label) = .ok (f, r) := by
    rw [← i1]
    simp only [tofIndices, labelReaction, if_neg h1, if_neg h2]
  simp only [hl, hi]
  have hrow : ((records.map fun x => (x.1, x.2.1 :: x.2.2)).map fun x => Elem.nums x.2).mapM (tofOfRow f r) =
      .ok (records.map fun x => textTurnover p ps x.2.2) := by
    rw [List.map_map, List.mapM_map]
    apply mapM_ok
    intro x hx
    obtain ⟨a, b, h1, h2, h3⟩ := i2 (x.2.1 :: x.2.2) (by rw [List.length_cons, hr x hx]; omega)
    show tofOfRow f r (.nums (x.2.1 :: x.2.2)) = _
    unfold tofOfRow
    show (List.foldlM _ 0 f >>= fun a => List.foldlM _ a r) = _
    rw [h1 0]
    show List.foldlM _ (0 + a) r = _
    rw [h2, zero_add, h3]; simp
  simp only [hrow]
  simp [pure, Except.pure]

/-- C100: whatever the file, a figure is only drawn with a frequency for every time and every row of rates. -/
theorem C100_lengths (p : Str) (file : List (Stmt K)) (ts : List (Elem K)) (vs : List K) (h : plotTof p file = .ok (ts, vs)) :
    ts.length = vs.length ∧ ∃ env rows, execFile file = .ok env ∧ get? env (str! "tofs") = some rows ∧ rows.length = vs.length ∧
      get? env (str! "times") = some ts := by
  unfold plotTof at h
  obtain ⟨env, h0, h⟩ := bind_ok.mp h
  obtain ⟨rows, h1, h⟩ := bind_ok.mp h
  obtain ⟨times, h2, h⟩ := bind_ok.mp h
  obtain ⟨procs, -, h⟩ := bind_ok.mp h
  obtain ⟨labels, -, h⟩ := bind_ok.mp h
  obtain ⟨⟨f, r⟩, -, h⟩ := bind_ok.mp h
  dsimp only at h
  obtain ⟨tofs, h3, h⟩ := bind_ok.mp h
  have hv : ∀ {v : Str} {l : List (Elem K)}, localVar env v = .ok l → get? env v = some l := by
    intro v l hl
    unfold localVar at hl
    split at hl
    · cases hl; assumption
    · exact nomatch hl
  split at h
  · rename_i hl
    cases h
    exact ⟨hl, env, rows, h0, hv h1, (mapM_ok_inv h3).1.symm, hv h2⟩
  · exact nomatch h

/-- C100: a row that is too short for a process that makes the product, and a number in place of a row, end the script. -/
theorem C100_rows_rejected (f r : List Nat) (i : Nat) (hi : i ∈ f ∨ i ∈ r) (row : Elem K) (hrow : ∀ l, row = .nums l → l.length ≤ i) :
    ∃ e, tofOfRow f r row = .error e := by
  have fails : ∃ e, rateAt row i = .error e := by
    cases row with
    | num x => exact ⟨_, rfl⟩
    | str s => unfold rateAt; dsimp only; split <;> exact ⟨_, rfl⟩
    | nums l =>
      refine ⟨.IndexError, ?_⟩
      unfold rateAt
      dsimp only
      rw [List.getElem?_eq_none (hrow l rfl)]
  obtain ⟨e, he⟩ := fails
  have loop : ∀ (op : K → K → K) (l : List Nat), i ∈ l → ∀ a y : K,
      l.foldlM (fun s i => do pure (op s (← rateAt row i))) a ≠ (Except.ok y : Py K) := by
    intro op l
    induction l with
    | nil => intro h; simp at h
    | cons j l ih =>
      intro h a y hy
      rw [List.foldlM_cons] at hy
      obtain ⟨b, h1, h2⟩ := bind_ok.mp hy
      obtain ⟨c, h3, -⟩ := bind_ok.mp h1
      rcases List.mem_cons.mp h with rfl | h
      · rw [he] at h3
        exact nomatch h3
      · exact ih h b y h2
  cases h : tofOfRow f r row with
  | error e => exact ⟨e, rfl⟩
  | ok y =>
    exfalso
    unfold tofOfRow at h
    obtain ⟨a, h1, h2⟩ := bind_ok.mp h
    rcases hi with hi | hi
    · exact loop (· + ·) f hi 0 a h1
    · exact loop (· - ·) r hi a y h2

/-- What the script takes for granted of a product and a reaction: the product does not react, at most one molecule of it is
made, and no other formula of the last state holds its name. -/
structure Countable (p : Str) (r : Spec.Rxn) : Prop where
  consumed : ∀ f ∈ r.firstState, f.speciesSite ≠ p ∨ f.coefficient = 0
  single : molecules p r.lastState ≤ 1
  own : ∀ f ∈ r.lastState, p <:+: f.text → f.speciesSite = p ∧ f.coefficient ≠ 0

theorem sum_eq_zero_nat {l : List Nat} (h : ∀ x ∈ l, x = 0) : l.sum = 0 := by
  induction l with
  | nil => rfl
  | cons x l ih => rw [List.sum_cons, h x (by simp), ih (fun y hy => h y (by simp [hy]))]

theorem mem_le_sum_nat {l : List Nat} {x : Nat} (h : x ∈ l) : x ≤ l.sum := by
  induction l with
  | nil => cases h
  | cons y l ih =>
    rw [List.sum_cons]
    rcases List.mem_cons.mp h with rfl | h
    · omega
    · have := ih h; omega

theorem countable_text {g : Spec.Formula} {p : Str} (hg : g.ok = true) (hp : p = g.speciesSite) {r : Spec.Rxn} (h : Countable p r) :
    (netMade p r : Int) = if p <:+: r.lastState.text then 1 else 0 := by
  have h0 : molecules p r.firstState = 0 := by
    apply sum_eq_zero_nat
    intro x hx
    obtain ⟨f, hf, rfl⟩ := List.mem_map.mp hx
    rcases h.consumed f hf with h | h
    · rw [if_neg h]
    · split
      · exact h
      · rfl
  have chars : ∀ c ∈ p, isSpace c = false ∧ c ≠ '+' := by
    intro c hc
    have := formula_text_chars hg c (by rw [hp] at hc; simp [Spec.Formula.text, hc])
    exact ⟨this.1, this.2.1⟩
  unfold netMade
  rw [h0]
  by_cases ht : p <:+: r.lastState.text
  · rw [if_pos ht]
    obtain ⟨x, hx, hx'⟩ := infix_join (fun hc => absurd (chars _ hc).1 (by decide)) (fun hc => (chars _ hc).2 rfl)
      (by rw [hp]; simp [Spec.Formula.speciesSite]) ht
    obtain ⟨f, hf, rfl⟩ := List.mem_map.mp hx
    obtain ⟨o1, o2⟩ := h.own f hf hx'
    have h1 : 1 ≤ molecules p r.lastState := by
      unfold molecules
      have : (if f.speciesSite = p then f.coefficient else 0) ∈ r.lastState.map fun f => if f.speciesSite = p then f.coefficient else 0 :=
        List.mem_map.mpr ⟨f, hf, rfl⟩
      rw [if_pos o1] at this
      exact le_trans (Nat.one_le_iff_ne_zero.mpr o2) (mem_le_sum_nat this)
    have := h.single
    omega
  · rw [if_neg ht]
    have : molecules p r.lastState = 0 := by
      apply sum_eq_zero_nat
      intro x hx
      obtain ⟨f, hf, rfl⟩ := List.mem_map.mp hx
      split
      · rename_i e
        refine absurd (infix_join_of (List.mem_map.mpr ⟨f, hf, rfl⟩) ?_) ht
        rw [← e]
        exact (List.suffix_append _ _).isInfix
      · rfl
    rw [this]; rfl

/-- C100: for products that only appear as single molecules in last states and whose name is in no other name, the script
shows the turnover frequency at every recorded time. -/
theorem C100_turnover_partial (g : Spec.Formula) (hg : g.ok = true) (ps : List ShownProcess) (h : ∀ q ∈ ps, q.rxn.ok = true)
    (hc : ∀ q ∈ ps, Countable g.speciesSite q.rxn) (bufferSize : Nat)
    (records : List (K × List K)) (hr : ∀ x ∈ records, x.2.length = ps.length) :
    plotTof g.speciesSite (tofFile (ps.map ShownProcess.label) bufferSize records) =
      .ok (records.map fun x => .num x.1, records.map fun x => shownTurnover g.speciesSite ps x.2) := by
  rw [C100_shown g.speciesSite ps h bufferSize records hr]
  congr 2
  apply List.map_congr_left
  intro x _
  unfold textTurnover shownTurnover
  congr 1
  apply List.map_congr_left
  intro y hy
  have hq := (List.of_mem_zip hy).1
  rw [countable_text hg rfl (hc _ hq)]
  split <;> simp

end

/-- `CO_s + O_s -> CO2_g + 2*_s` -/
def exMakesCO2 : Spec.Rxn :=
  .two [⟨none, .mol [.elem 'C' none, .elem 'O' none], none, str! "s"⟩, ⟨none, .mol [.elem 'O' none], none, str! "s"⟩]
    [⟨none, .mol [.elem 'C' none, .elem 'O' (some 2)], none, str! "g"⟩, ⟨some 2, .emptySite, none, str! "s"⟩]

/-- `O2_g + 2*_s <-> O-O_2s -> 2O_s` -/
def exTakesO2 : Spec.Rxn :=
  .three [⟨none, .mol [.elem 'O' (some 2)], none, str! "g"⟩, ⟨some 2, .emptySite, none, str! "s"⟩]
    [⟨none, .mol [.elem 'O' none, .dash, .elem 'O' none], some 2, str! "s"⟩]
    [⟨some 2, .mol [.elem 'O' none], none, str! "s"⟩]

/-- `2H_s + O_s -> H2O_g + 3*_s` written twice: `4H_s + 2O_s -> 2H2O_g + 6*_s` -/
def exMakesTwo : Spec.Rxn :=
  .two [⟨some 4, .mol [.elem 'H' none], none, str! "s"⟩, ⟨some 2, .mol [.elem 'O' none], none, str! "s"⟩]
    [⟨some 2, .mol [.elem 'H' (some 2), .elem 'O' none], none, str! "g"⟩, ⟨some 6, .emptySite, none, str! "s"⟩]

def exShown : List ShownProcess := [⟨exMakesCO2, false, false, true⟩, ⟨exMakesCO2, false, false, false⟩, ⟨exTakesO2, true, false, true⟩]

def exCO2 : Spec.Formula := ⟨none, .mol [.elem 'C' none, .elem 'O' (some 2)], none, str! "g"⟩
def exO2 : Spec.Formula := ⟨none, .mol [.elem 'O' (some 2)], none, str! "g"⟩
def exH2O : Spec.Formula := ⟨none, .mol [.elem 'H' (some 2), .elem 'O' none], none, str! "g"⟩

/-- The hypotheses of `C100_turnover_partial` hold for carbon dioxide. -/
theorem exShown_countable : (∀ q ∈ exShown, q.rxn.ok = true) ∧ exCO2.ok = true ∧ ∀ q ∈ exShown, Countable exCO2.speciesSite q.rxn := by
  refine ⟨by decide, by decide, ?_⟩
  have h1 : Countable exCO2.speciesSite exMakesCO2 := ⟨by decide, by decide, by decide +kernel⟩
  have h2 : Countable exCO2.speciesSite exTakesO2 := ⟨by decide, by decide, by decide +kernel⟩
  intro q hq
  simp only [exShown, List.mem_cons, List.not_mem_nil, or_false] at hq
  rcases hq with rfl | rfl | rfl
  · exact h1
  · exact h1
  · exact h2

example : plotTof (K := ℚ) (str! "CO2_g") (tofFile (exShown.map ShownProcess.label) 1 [(0, [5, 2, 7]), (3, [4, 1, 9])]) =
    .ok ([.num 0, .num 3], [3, 3]) ∧ shownTurnover (K := ℚ) (str! "CO2_g") exShown [5, 2, 7] = 3 := by
  decide +kernel

/-- C100 fails when the name of the product is part of another name: oxygen is shown to be made at the rate of carbon
dioxide, while it is consumed. -/
theorem C100_name_refuted : exO2.speciesSite = str! "O2_g" ∧
    plotTof (K := ℚ) exO2.speciesSite (tofFile (exShown.map ShownProcess.label) 1 [(0, [5, 2, 7])]) = .ok ([.num 0], [3]) ∧
    shownTurnover (K := ℚ) exO2.speciesSite exShown [5, 2, 7] = -7 := by
  decide +kernel

/-- C100 fails when several molecules are made at once, and when the product is consumed. -/
theorem C100_coefficient_refuted : ∃ ps : List ShownProcess, (∀ q ∈ ps, q.rxn.ok = true) ∧
    plotTof (K := ℚ) exH2O.speciesSite (tofFile (ps.map ShownProcess.label) 1 [(0, [5])]) = .ok ([.num 0], [5]) ∧
    shownTurnover (K := ℚ) exH2O.speciesSite ps [5] = 10 :=
  ⟨[⟨exMakesTwo, false, false, true⟩], by decide, by decide +kernel, by decide +kernel⟩

-- `C100_unmarked`: a diffusion without direction before the processes; `C100_rows_rejected`: a short row.
example : PlainText (str! "diffusion") ∧ ¬ str! "(->)" <:+ str! "diffusion" ∧ ¬ str! "(<-)" <:+ str! "diffusion" ∧
    plotTof (K := ℚ) exCO2.speciesSite (tofFile (str! "diffusion" :: exShown.map ShownProcess.label) 1 [(0, [9, 5, 2, 7])]) =
      .ok ([.num 0], [textTurnover exCO2.speciesSite exShown [5, 2, 7]]) := by
  refine ⟨by unfold PlainText; decide, by decide, by decide, by decide +kernel⟩

example : ∃ e, tofOfRow [0] [3] (.nums [(5 : ℚ), 2, 7]) = .error e := C100_rows_rejected [0] [3] 3 (by decide) _ fun l hl => by cases hl; decide

/-! ### The theorems at these cases -/

example := C100_shown (K := ℚ) (str! "CO2_g") exShown exShown_countable.1 1 [(0, [5, 2, 7]), (3, [4, 1, 9])] (by decide +kernel)

example := C100_unmarked (K := ℚ) (str! "CO2_g") (str! "diffusion") (by unfold PlainText; decide) (by decide) (by decide) exShown exShown_countable.1 1 [(0, 9, [5, 2, 7])]
  (by decide +kernel)

example := C100_lengths (K := ℚ) (str! "CO2_g") (tofFile (exShown.map ShownProcess.label) 1 [(0, [5, 2, 7]), (3, [4, 1, 9])]) [.num 0, .num 3] [3, 3] (by decide +kernel)

example := C100_turnover_partial (K := ℚ) exCO2 exShown_countable.2.1 exShown exShown_countable.1 exShown_countable.2.2 1 [(0, [5, 2, 7]), (3, [4, 1, 9])] (by decide +kernel)

end Verif
