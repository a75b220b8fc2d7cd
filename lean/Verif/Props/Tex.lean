import Verif.Model.Tex
import Verif.Spec.Tex
import Verif.Lemmas.Rxn
import Verif.Lemmas.Py
import Verif.Lemmas.Conserve
/-
LaTeX texts (C80).
-/
namespace Verif

/-! ### Formulas -/

theorem subTex_elem {c : Char} {n : Option Nat} {h : Str} (hc : isLetter c = true) (hh : ∀ d, h.head? = some d → isDigit d = false) :
    subTex (c :: Spec.numText n ++ h) = (Spec.Tok.elem c n).tex ++ subTex h := by
  unfold subTex
  have h1 : isSiteChar c = true := by simp [isSiteChar, hc]
  rw [List.cons_append, spTokens, if_pos h1, takeWhile_digits (numText_digits n) hh, spTokens_digits (numText_digits n), List.flatMap_cons]
  congr 1
  cases n with
  | none => rfl
  | some n => exact if_neg Nat.toDigits_ne_nil

/-- Splitting at dashes and joining again. -/
theorem dash_tex {ts : List Spec.Tok} (hok : ∀ t ∈ ts, t.ok = true) :
    joinWith (str! "-") ((splitOn '-' (ts.flatMap Spec.Tok.text)).map subTex) = ts.flatMap Spec.Tok.tex ∧
    ∀ h tl, splitOn '-' (ts.flatMap Spec.Tok.text) = h :: tl → ∀ d, h.head? = some d → isDigit d = false := by
  induction ts with
  | nil => exact ⟨rfl, by intro h tl e; cases e; simp⟩
  | cons t ts ih =>
    obtain ⟨i1, i2⟩ := ih fun t ht => hok t (by simp [ht])
    cases hsp : splitOn '-' (ts.flatMap Spec.Tok.text) with
    | nil => exact absurd hsp (splitOn_ne_nil _ _)
    | cons h tl =>
      rw [hsp] at i1
      cases t with
      | dash =>
        have e : splitOn '-' ((Spec.Tok.dash :: ts).flatMap Spec.Tok.text) = [] :: h :: tl := by
          rw [List.flatMap_cons, Spec.Tok.text, List.singleton_append, splitOn, if_pos rfl, hsp]
        rw [e]
        refine ⟨?_, by intro h tl e; cases e; simp⟩
        rw [List.map_cons, List.map_cons, joinWith, List.flatMap_cons, ← i1]
        rfl
      | elem c n =>
        have hc : isLetter c = true := hok (.elem c n) (by simp)
        have hno : '-' ∉ c :: Spec.numText n := by
          intro hm
          rcases List.mem_cons.mp hm with rfl | hm
          · revert hc; decide
          · have := numText_digits n _ hm
            revert this; decide
        have key : ∀ (w : Str), '-' ∉ w → splitOn '-' (w ++ ts.flatMap Spec.Tok.text) = (w ++ h) :: tl := by
          intro w hw
          induction w with
          | nil => exact hsp
          | cons a w ihw =>
            rw [List.cons_append, splitOn, if_neg (fun e => hw (by simp [e])), ihw fun hm => hw (by simp [hm])]
            rfl
        have e : splitOn '-' ((Spec.Tok.elem c n :: ts).flatMap Spec.Tok.text) = (c :: Spec.numText n ++ h) :: tl := by
          rw [List.flatMap_cons, Spec.Tok.text, key _ hno]
        rw [e]
        constructor
        · rw [List.map_cons, subTex_elem hc (i2 _ _ hsp), List.flatMap_cons, ← i1]
          cases tl with
          | nil => rfl
          | cons b tl => simp only [List.map_cons, joinWith, List.append_assoc]
        · intro h' tl' e' d hd
          cases e'
          rw [List.cons_append, List.head?_cons] at hd
          cases hd
          rw [Bool.eq_false_iff]
          intro hdig
          rw [isDigit_iff] at hdig
          rw [isLetter_iff] at hc
          omega

/-- The LaTeX text of a species as the code makes it from its name. -/
theorem species_tex {sp : Spec.Species} (h : sp.ok = true) :
    (if '-' ∈ sp.text then joinWith (str! "-") ((splitOn '-' sp.text).map subTex) else subTex sp.text) = sp.tex := by
  cases sp with
  | emptySite => decide
  | mol ts =>
    have hd := (dash_tex (List.all_eq_true.mp h)).1
    unfold Spec.Species.text Spec.Species.tex
    dsimp only
    split
    · exact hd
    · rename_i hno
      rw [splitOn_no hno] at hd
      exact hd

/-- The LaTeX text of a formula. -/
theorem formula_tex {f : Spec.Formula} (h : f.ok = true) : (ofSpec f).tex = f.tex := by
  obtain ⟨h1, -, -⟩ := formula_ok_parts h
  unfold Formula.tex Spec.Formula.tex
  have hc : (if (ofSpec f).stoich ≠ 1 then Nat.toDigits 10 (ofSpec f).stoich else []) = Spec.coefTex f.coefficient := by
    unfold Spec.coefTex
    show (if f.coefficient ≠ 1 then _ else _) = _
    by_cases h1 : f.coefficient = 1
    · rw [if_neg (by simp [h1]), if_pos h1]
    · rw [if_pos h1, if_neg h1]
      rfl
  rw [hc]
  show _ ++ (if '-' ∈ f.sp.text then joinWith (str! "-") ((splitOn '-' f.sp.text).map subTex) else subTex f.sp.text) ++ _ ++ f.site ++ _ = _
  rw [species_tex h1]

theorem joinWith_foldl {α : Type} (g : α → Str) (sep : Str) (l : List α) : ∀ t : Str,
    l.foldl (fun t x => t ++ sep ++ g x) t = joinWith sep (t :: l.map g) := by
  induction l with
  | nil => intro t; rfl
  | cons a l ih =>
    intro t
    rw [List.foldl_cons, ih, List.map_cons]
    cases l <;> simp [joinWith]

theorem state_tex {s : Spec.State} (h : s.ok = true) : stateTex s.text = .ok s.tex := by
  unfold stateTex
  rw [stateFormulas_ofSpec h]
  obtain ⟨h1, h2⟩ := state_ok_parts h
  cases s with
  | nil => exact absurd rfl h1
  | cons f fs =>
    show Except.ok ((fs.map ofSpec).foldl (fun t g => t ++ str! " + " ++ g.tex) (ofSpec f).tex) = _
    rw [joinWith_foldl, formula_tex (h2 f (by simp)), List.map_map]
    unfold Spec.State.tex
    rw [List.map_cons]
    congr 3
    apply List.map_congr_left
    intro g hg
    exact formula_tex (h2 g (by simp [hg]))

/-- **C80** The LaTeX text of a reaction is the one a chemist writes: coefficients, elements with their counts as
subscripts, dashes, sites in parentheses, and the arrows. -/
theorem C80_tex (r : Spec.Rxn) (r1 r2 : Bool) (h : r.ok = true) : eqnTex (r.text r1 r2) = .ok r.tex := by
  have hs := rxn_ok_states h
  have hm : (r.states.map Spec.State.text).mapM stateTex = .ok (r.states.map Spec.State.tex) := by
    rw [List.mapM_map]
    exact mapM_ok fun s hs' => state_tex (hs s hs')
  unfold eqnTex
  rw [eqnStates_ofSpec h]
  show ((r.states.map Spec.State.text).mapM stateTex >>= _) = _
  rw [hm]
  cases r <;> rfl

/-! ### Reading back -/

/-- The text without the marks of subscripts. -/
def noMarks (s : Str) : Str := s.filter fun c => c ≠ '_' ∧ c ≠ '{' ∧ c ≠ '}'

theorem noMarks_append (a b : Str) : noMarks (a ++ b) = noMarks a ++ noMarks b := List.filter_append ..

theorem noMarks_plain {s : Str} (h : ∀ c ∈ s, c ≠ '_' ∧ c ≠ '{' ∧ c ≠ '}') : noMarks s = s :=
  List.filter_eq_self.mpr fun c hc => by simpa using h c hc

theorem digit_plain {c : Char} (h : isDigit c = true) : c ≠ '_' ∧ c ≠ '{' ∧ c ≠ '}' ∧ c ≠ '(' ∧ c ≠ ' ' := by
  rw [isDigit_iff] at h
  refine ⟨?_, ?_, ?_, ?_, ?_⟩ <;> (rw [Ne, char_eq_iff]; simp; omega)

theorem letter_plain {c : Char} (h : isLetter c = true) : c ≠ '_' ∧ c ≠ '{' ∧ c ≠ '}' ∧ c ≠ '(' ∧ c ≠ ' ' := by
  rw [isLetter_iff] at h
  refine ⟨?_, ?_, ?_, ?_, ?_⟩ <;> (rw [Ne, char_eq_iff]; simp; omega)

theorem noMarks_tok {t : Spec.Tok} (h : t.ok = true) : noMarks t.tex = t.text := by
  cases t with
  | dash => decide
  | elem c n =>
    have hc := letter_plain h
    cases n with
    | none => exact noMarks_plain (s := [c]) (by simp; exact ⟨hc.1, hc.2.1, hc.2.2.1⟩)
    | some n =>
      show noMarks ([c] ++ str! "_{" ++ Nat.toDigits 10 n ++ str! "}") = [c] ++ Nat.toDigits 10 n
      rw [noMarks_append, noMarks_append, noMarks_append, noMarks_plain (s := [c]) (by simp; exact ⟨hc.1, hc.2.1, hc.2.2.1⟩),
        noMarks_plain (s := Nat.toDigits 10 n) (fun d hd => by
          have := digit_plain (numText_digits (some n) d hd)
          exact ⟨this.1, this.2.1, this.2.2.1⟩)]
      simp [noMarks]

theorem noMarks_species {sp : Spec.Species} (h : sp.ok = true) : noMarks sp.tex = sp.text := by
  cases sp with
  | emptySite => decide
  | mol ts =>
    have h' := List.all_eq_true.mp h
    unfold Spec.Species.tex Spec.Species.text
    dsimp only
    clear h
    induction ts with
    | nil => rfl
    | cons t ts ih =>
      rw [List.flatMap_cons, List.flatMap_cons, noMarks_append, noMarks_tok (h' t (by simp)), ih fun t ht => h' t (by simp [ht])]

theorem coefTex_digits (n : Nat) : ∀ c ∈ Spec.coefTex n, isDigit c = true := by
  unfold Spec.coefTex
  split
  · simp
  · exact numText_digits (some n)

theorem coefTex_int (n : Nat) : intOr1 (Spec.coefTex n) = n := by
  unfold Spec.coefTex
  split
  · rename_i h; rw [h]; rfl
  · exact intOr1_numText (some n)

theorem digits_split {a b s t : Str} (ha : ∀ c ∈ a, isDigit c = true) (hb : ∀ c ∈ b, isDigit c = true)
    (hs : ∀ c, s.head? = some c → isDigit c = false) (ht : ∀ c, t.head? = some c → isDigit c = false) (h : a ++ s = b ++ t) : a = b ∧ s = t := by
  have h1 : a = b := by rw [← takeWhile_digits ha hs, h, takeWhile_digits hb ht]
  subst h1
  exact ⟨rfl, List.append_cancel_left h⟩

theorem site_chars {f : Spec.Formula} (h : f.ok = true) : ∀ c ∈ f.site, c ≠ '_' ∧ c ≠ '{' ∧ c ≠ '}' ∧ c ≠ '(' ∧ c ≠ ' ' := by
  intro c hc
  obtain ⟨-, -, h3⟩ := formula_ok_parts h
  rcases (isSiteChar_iff c).mp (h3 c hc) with h | h
  · exact letter_plain h
  · have : c = '*' := by rw [char_eq_iff]; exact h
    subst this; decide

theorem species_no_paren {sp : Spec.Species} (h : sp.ok = true) : '(' ∉ sp.text := by
  intro hm
  have := ((species_chars h).1 _ hm).1
  revert this; decide

/-- The parts of the LaTeX text of a formula. -/
theorem noMarks_formula {f : Spec.Formula} (h : f.ok = true) :
    noMarks f.tex = Spec.coefTex f.coefficient ++ f.sp.text ++ '(' :: (f.site ++ [')']) := by
  obtain ⟨h1, -, -⟩ := formula_ok_parts h
  unfold Spec.Formula.tex
  rw [noMarks_append, noMarks_append, noMarks_append, noMarks_append, noMarks_species h1,
    noMarks_plain (s := Spec.coefTex _) (fun c hc => by
      have := digit_plain (coefTex_digits _ c hc); exact ⟨this.1, this.2.1, this.2.2.1⟩),
    noMarks_plain (s := f.site) (fun c hc => by
      have := site_chars h c hc; exact ⟨this.1, this.2.1, this.2.2.1⟩)]
  simp [noMarks]

/-- **C80** (partial) Nothing is lost in the LaTeX text of a formula but the number of sites: formulas have the same text
exactly if they have the same coefficient, species and site. Missing: the number of sites, see `C80_sites_refuted`. -/
theorem C80_formula_partial (f g : Spec.Formula) (hf : f.ok = true) (hg : g.ok = true) : f.tex = g.tex ↔ f.looksLike g := by
  constructor
  · intro h
    have h' : noMarks f.tex = noMarks g.tex := by rw [h]
    rw [noMarks_formula hf, noMarks_formula hg] at h'
    have hp : ∀ k : Spec.Formula, k.ok = true → '(' ∉ Spec.coefTex k.coefficient ++ k.sp.text := by
      intro k hk hm
      rcases List.mem_append.mp hm with hm | hm
      · exact (digit_plain (coefTex_digits _ _ hm)).2.2.2.1 rfl
      · exact species_no_paren (formula_ok_parts hk).1 hm
    have hsplit := congrArg (splitOn '(') h'
    have hs : ∀ k : Spec.Formula, k.ok = true → '(' ∉ k.site ++ [')'] := by
      intro k hk hm
      rcases List.mem_append.mp hm with hm | hm
      · exact (site_chars hk _ hm).2.2.2.1 rfl
      · revert hm; decide
    rw [splitOn_append (hp f hf), splitOn_append (hp g hg), splitOn_no (hs f hf), splitOn_no (hs g hg)] at hsplit
    obtain ⟨e1, e2⟩ := List.cons.inj hsplit
    have e3 := List.append_cancel_right (List.cons.inj e2).1
    obtain ⟨e4, e5⟩ := digits_split (coefTex_digits _) (coefTex_digits _) (species_chars (formula_ok_parts hf).1).2
      (species_chars (formula_ok_parts hg).1).2 e1
    have e6 : f.coefficient = g.coefficient := by rw [← coefTex_int f.coefficient, e4, coefTex_int]
    exact ⟨e6, e5, e3⟩
  · rintro ⟨h1, h2, h3⟩
    unfold Spec.Formula.tex
    rw [h1, h3, ← species_tex (formula_ok_parts hf).1, ← species_tex (formula_ok_parts hg).1, h2]

/-! ### Reactions -/

/-- The words of a state. -/
def stateWords : Spec.State → List Str
  | [] => []
  | [f] => [f.tex]
  | f :: g :: s => f.tex :: str! "+" :: stateWords (g :: s)

def Arrow (w : Str) : Prop := w = str! "\\rightarrow" ∨ w = str! "\\leftrightarrow"

theorem tex_chars {f : Spec.Formula} (h : f.ok = true) : ' ' ∉ f.tex ∧ '(' ∈ f.tex := by
  constructor
  · intro hm
    have hn : ' ' ∈ noMarks f.tex := by
      unfold noMarks
      rw [List.mem_filter]
      exact ⟨hm, by decide⟩
    rw [noMarks_formula h] at hn
    simp only [List.mem_append, List.mem_cons] at hn
    have hsp := (species_chars (formula_ok_parts h).1).1
    rcases hn with (hn | hn) | hn | hn | hn
    · exact absurd (coefTex_digits _ _ hn) (by decide)
    · exact absurd (hsp _ hn) (by decide)
    · exact absurd hn (by decide)
    · exact absurd ((formula_ok_parts h).2.2 _ hn) (by decide)
    · revert hn; decide
  · unfold Spec.Formula.tex
    simp

theorem not_word {f : Spec.Formula} (h : f.ok = true) : f.tex ≠ str! "+" ∧ ¬ Arrow f.tex := by
  have := (tex_chars h).2
  constructor
  · intro e; rw [e] at this; revert this; decide
  · rintro (e | e) <;> rw [e] at this <;> revert this <;> decide

theorem splitOn_words {s : Spec.State} (hne : s ≠ []) (h : ∀ f ∈ s, f.ok = true) (w rest : Str) (hw : ' ' ∉ w) :
    splitOn ' ' (s.tex ++ str! " " ++ w ++ str! " " ++ rest) = stateWords s ++ w :: splitOn ' ' rest := by
  induction s with
  | nil => exact absurd rfl hne
  | cons f s ih =>
    cases s with
    | nil =>
      show splitOn ' ' (f.tex ++ [' '] ++ w ++ [' '] ++ rest) = f.tex :: w :: _
      rw [show f.tex ++ [' '] ++ w ++ [' '] ++ rest = f.tex ++ ' ' :: (w ++ ' ' :: rest) by simp,
        splitOn_append (tex_chars (h f (by simp))).1, splitOn_append hw]
    | cons g s =>
      have i := ih (by simp) (fun k hk => h k (by simp [hk]))
      show splitOn ' ' (f.tex ++ str! " + " ++ Spec.State.tex (g :: s) ++ [' '] ++ w ++ [' '] ++ rest) = f.tex :: str! "+" :: (stateWords (g :: s) ++ _)
      rw [show f.tex ++ str! " + " ++ Spec.State.tex (g :: s) ++ [' '] ++ w ++ [' '] ++ rest =
          f.tex ++ ' ' :: ['+'] ++ ' ' :: (Spec.State.tex (g :: s) ++ [' '] ++ w ++ [' '] ++ rest) by simp,
        List.append_assoc, List.cons_append,
        splitOn_append (tex_chars (h f (by simp))).1, splitOn_append (by decide)]
      have i' : splitOn ' ' (Spec.State.tex (g :: s) ++ [' '] ++ w ++ [' '] ++ rest) = _ := i
      rw [i']

theorem splitOn_words_last {s : Spec.State} (hne : s ≠ []) (h : ∀ f ∈ s, f.ok = true) : splitOn ' ' s.tex = stateWords s := by
  induction s with
  | nil => exact absurd rfl hne
  | cons f s ih =>
    cases s with
    | nil => exact splitOn_no (tex_chars (h f (by simp))).1
    | cons g s =>
      have i := ih (by simp) (fun k hk => h k (by simp [hk]))
      show splitOn ' ' (f.tex ++ str! " + " ++ Spec.State.tex (g :: s)) = f.tex :: str! "+" :: stateWords (g :: s)
      rw [show f.tex ++ str! " + " ++ Spec.State.tex (g :: s) = f.tex ++ ' ' :: (['+'] ++ ' ' :: Spec.State.tex (g :: s)) by simp,
        splitOn_append (tex_chars (h f (by simp))).1, splitOn_append (by decide), i]

/-- The words of two states followed by nothing or by an arrow. -/
theorem words_inj {s : Spec.State} : ∀ {t : Spec.State} {R R' : List Str}, s ≠ [] → t ≠ [] → (∀ f ∈ s, f.ok = true) →
    (∀ f ∈ t, f.ok = true) → (∀ w ∈ R.head?, Arrow w) → (∀ w ∈ R'.head?, Arrow w) →
    stateWords s ++ R = stateWords t ++ R' → List.Forall₂ Spec.Formula.looksLike s t ∧ R = R' := by
  have harr : ¬ Arrow (str! "+") := by rintro (h | h) <;> revert h <;> decide
  induction s with
  | nil => intro t R R' h; exact absurd rfl h
  | cons f s ih =>
    intro t R R' _ hne hs ht hR hR' e
    cases t with
    | nil => exact absurd rfl hne
    | cons g t =>
      have key : f.tex = g.tex → f.looksLike g := (C80_formula_partial f g (hs f (by simp)) (ht g (by simp))).mp
      cases s with
      | nil =>
        cases t with
        | nil =>
          obtain ⟨e1, e2⟩ := List.cons.inj e
          exact ⟨.cons (key e1) .nil, e2⟩
        | cons g' t =>
          obtain ⟨e1, e2⟩ := List.cons.inj (show f.tex :: R = g.tex :: str! "+" :: (stateWords (g' :: t) ++ R') from e)
          rw [e2] at hR
          exact absurd (hR _ rfl) harr
      | cons f' s =>
        cases t with
        | nil =>
          obtain ⟨e1, e2⟩ := List.cons.inj (show f.tex :: str! "+" :: (stateWords (f' :: s) ++ R) = g.tex :: R' from e)
          rw [← e2] at hR'
          exact absurd (hR' _ rfl) harr
        | cons g' t =>
          obtain ⟨e1, e2⟩ := List.cons.inj
            (show f.tex :: str! "+" :: (stateWords (f' :: s) ++ R) = g.tex :: str! "+" :: (stateWords (g' :: t) ++ R') from e)
          obtain ⟨i1, i2⟩ := ih (by simp) (by simp) (fun k hk => hs k (by simp [hk])) (fun k hk => ht k (by simp [hk])) hR hR'
            (List.cons.inj e2).2
          exact ⟨.cons (key e1) i1, i2⟩

theorem state_tex_eq {s t : Spec.State} (hs : ∀ f ∈ s, f.ok = true) (ht : ∀ f ∈ t, f.ok = true)
    (h : List.Forall₂ Spec.Formula.looksLike s t) : s.tex = t.tex := by
  unfold Spec.State.tex
  congr 1
  induction h with
  | nil => rfl
  | cons h1 _ ih =>
    rw [List.map_cons, List.map_cons, ih (fun k hk => hs k (by simp [hk])) (fun k hk => ht k (by simp [hk])),
      (C80_formula_partial _ _ (hs _ (by simp)) (ht _ (by simp))).mpr h1]

/-- The words of a reaction. -/
theorem rxn_words {r : Spec.Rxn} (h : r.ok = true) : splitOn ' ' r.tex = match r with
    | .two a b => stateWords a ++ str! "\\rightarrow" :: stateWords b
    | .three a b c => stateWords a ++ str! "\\leftrightarrow" :: (stateWords b ++ str! "\\rightarrow" :: stateWords c) := by
  have hs := rxn_ok_states h
  cases r with
  | two a b =>
    obtain ⟨a1, a2⟩ := state_ok_parts (hs a (by simp [Spec.Rxn.states]))
    obtain ⟨b1, b2⟩ := state_ok_parts (hs b (by simp [Spec.Rxn.states]))
    have e := splitOn_words a1 a2 (str! "\\rightarrow") b.tex (by decide)
    rw [splitOn_words_last b1 b2] at e
    simpa [Spec.Rxn.tex] using e
  | three a b c =>
    obtain ⟨a1, a2⟩ := state_ok_parts (hs a (by simp [Spec.Rxn.states]))
    obtain ⟨b1, b2⟩ := state_ok_parts (hs b (by simp [Spec.Rxn.states]))
    obtain ⟨c1, c2⟩ := state_ok_parts (hs c (by simp [Spec.Rxn.states]))
    have e := splitOn_words b1 b2 (str! "\\rightarrow") c.tex (by decide)
    rw [splitOn_words_last c1 c2] at e
    have e' := splitOn_words a1 a2 (str! "\\leftrightarrow") (b.tex ++ str! " " ++ str! "\\rightarrow" ++ str! " " ++ c.tex) (by decide)
    rw [e] at e'
    simpa [Spec.Rxn.tex] using e'

/-- **C80** (partial) Two reactions get the same LaTeX text exactly if they are the same up to the numbers of sites.
Missing: the numbers of sites, see `C80_sites_refuted`. -/
theorem C80_determined_partial (r r' : Spec.Rxn) (h : r.ok = true) (h' : r'.ok = true) : r.tex = r'.tex ↔ r.looksLike r' := by
  have hs := rxn_ok_states h
  have hs' := rxn_ok_states h'
  have arr : ∀ (w : Str) (l : List Str), Arrow w → ∀ v ∈ (w :: l).head?, Arrow v := by
    intro w l hw v hv; cases hv; exact hw
  have nil : ∀ v ∈ ([] : List Str).head?, Arrow v := fun _ hv => (nomatch hv)
  constructor
  · intro e
    have w := rxn_words h
    rw [e, rxn_words h'] at w
    cases r with
    | two a b =>
      obtain ⟨a1, a2⟩ := state_ok_parts (hs a (by simp [Spec.Rxn.states]))
      obtain ⟨b1, b2⟩ := state_ok_parts (hs b (by simp [Spec.Rxn.states]))
      cases r' with
      | two a' b' =>
        obtain ⟨a3, a4⟩ := state_ok_parts (hs' a' (by simp [Spec.Rxn.states]))
        obtain ⟨b3, b4⟩ := state_ok_parts (hs' b' (by simp [Spec.Rxn.states]))
        obtain ⟨i1, i2⟩ := words_inj a1 a3 a2 a4 (arr _ _ (.inl rfl)) (arr _ _ (.inl rfl)) w.symm
        have i3 := (List.cons.inj i2).2
        exact ⟨i1, (words_inj b1 b3 b2 b4 nil nil (by rw [List.append_nil, List.append_nil]; exact i3)).1⟩
      | three a' b' c' =>
        obtain ⟨a3, a4⟩ := state_ok_parts (hs' a' (by simp [Spec.Rxn.states]))
        obtain ⟨i1, i2⟩ := words_inj a1 a3 a2 a4 (arr _ _ (.inl rfl)) (arr _ _ (.inr rfl)) w.symm
        exact absurd (List.cons.inj i2).1 (by decide)
    | three a b c =>
      obtain ⟨a1, a2⟩ := state_ok_parts (hs a (by simp [Spec.Rxn.states]))
      obtain ⟨b1, b2⟩ := state_ok_parts (hs b (by simp [Spec.Rxn.states]))
      obtain ⟨c1, c2⟩ := state_ok_parts (hs c (by simp [Spec.Rxn.states]))
      cases r' with
      | two a' b' =>
        obtain ⟨a3, a4⟩ := state_ok_parts (hs' a' (by simp [Spec.Rxn.states]))
        obtain ⟨i1, i2⟩ := words_inj a1 a3 a2 a4 (arr _ _ (.inr rfl)) (arr _ _ (.inl rfl)) w.symm
        exact absurd (List.cons.inj i2).1 (by decide)
      | three a' b' c' =>
        obtain ⟨a3, a4⟩ := state_ok_parts (hs' a' (by simp [Spec.Rxn.states]))
        obtain ⟨b3, b4⟩ := state_ok_parts (hs' b' (by simp [Spec.Rxn.states]))
        obtain ⟨c3, c4⟩ := state_ok_parts (hs' c' (by simp [Spec.Rxn.states]))
        obtain ⟨i1, i2⟩ := words_inj a1 a3 a2 a4 (arr _ _ (.inr rfl)) (arr _ _ (.inr rfl)) w.symm
        obtain ⟨i3, i4⟩ := words_inj b1 b3 b2 b4 (arr _ _ (.inl rfl)) (arr _ _ (.inl rfl)) (List.cons.inj i2).2
        have i5 := (List.cons.inj i4).2
        exact ⟨i1, i3, (words_inj c1 c3 c2 c4 nil nil (by rw [List.append_nil, List.append_nil]; exact i5)).1⟩
  · intro l
    have okf : ∀ {q : Spec.Rxn} (s : Spec.State), (∀ s ∈ q.states, s.ok = true) → s ∈ q.states → ∀ f ∈ s, f.ok = true :=
      fun s hq hm => (state_ok_parts (hq s hm)).2
    cases r with
    | two a b =>
      cases r' with
      | two a' b' =>
        unfold Spec.Rxn.tex
        dsimp only
        rw [state_tex_eq (okf a hs (by simp [Spec.Rxn.states])) (okf a' hs' (by simp [Spec.Rxn.states])) l.1,
          state_tex_eq (okf b hs (by simp [Spec.Rxn.states])) (okf b' hs' (by simp [Spec.Rxn.states])) l.2]
      | three a' b' c' => exact l.elim
    | three a b c =>
      cases r' with
      | two a' b' => exact l.elim
      | three a' b' c' =>
        unfold Spec.Rxn.tex
        dsimp only
        rw [state_tex_eq (okf a hs (by simp [Spec.Rxn.states])) (okf a' hs' (by simp [Spec.Rxn.states])) l.1,
          state_tex_eq (okf b hs (by simp [Spec.Rxn.states])) (okf b' hs' (by simp [Spec.Rxn.states])) l.2.1,
          state_tex_eq (okf c hs (by simp [Spec.Rxn.states])) (okf c' hs' (by simp [Spec.Rxn.states])) l.2.2]

/-! ### What is lost -/

/-- **C80** Different reactions can have the same LaTeX text: the number of sites is not shown. -/
theorem C80_sites_refuted : eqnTex (str! "CO_g + 2*_s -> CO_2s") = eqnTex (str! "CO_g + 2*_s -> CO_s") ∧
    (eqnTex (str! "CO_g + 2*_s -> CO_2s")).isOk := by decide +kernel

/-- **C80** Counts written before the first letter of a part of a name are lost. -/
theorem C80_part_refuted : eqnTex (str! "CO-2H_s -> CO-H_s") = .ok (str! "CO-H(s) \\rightarrow CO-H(s)") := by decide +kernel

/-- **C80** An equation without a left side is accepted, but has no LaTeX text. -/
theorem C80_oneSided_refuted : (checkConservation (str! "->CO_s")).isOk ∧ eqnTex (str! "->CO_s") = .error .UnboundLocalError := by
  decide +kernel

/-- **C80** The numbered LaTeX lines: one for each symbol, in order, with numbers from one. -/
theorem C80_lines (a b : Str) (symbols : List Str) :
    (latexStrs a b symbols).length = symbols.length ∧
    ∀ i (h : i < symbols.length), (latexStrs a b symbols)[i]? = some (a ++ Nat.toDigits 10 (i + 1) ++ b ++ str! " = " ++ symbols[i] ++ str! "\\\\\n") := by
  unfold latexStrs
  constructor
  · simp
  · intro i h
    simp [h]

/-- A reaction with a transition state, its text and its LaTeX text. -/
def exTexRxn : Spec.Rxn := .three [⟨none, .mol [.elem 'C' none, .elem 'H' (some 4)], none, ['g']⟩, ⟨some 2, .emptySite, none, ['s']⟩]
  [⟨none, .mol [.elem 'C' none, .elem 'H' (some 3), .dash, .elem 'H' none], none, ['s']⟩, ⟨none, .emptySite, none, ['s']⟩]
  [⟨none, .mol [.elem 'C' none, .elem 'H' (some 3)], none, ['s']⟩, ⟨none, .mol [.elem 'H' none], none, ['s']⟩]

example : exTexRxn.ok = true ∧ exTexRxn.text true false = str! "CH4_g + 2*_s <-> CH3-H_s + *_s -> CH3_s + H_s" ∧
    eqnTex (exTexRxn.text true false) = .ok (str! "CH_{4}(g) + 2*(s) \\leftrightarrow CH_{3}-H(s) + *(s) \\rightarrow CH_{3}(s) + H(s)") ∧
    exTexRxn.looksLike exTexRxn := by
  refine ⟨by decide +kernel, by decide +kernel, by decide +kernel, ?_⟩
  exact (C80_determined_partial _ _ (by decide +kernel) (by decide +kernel)).mp rfl

/-! ### The theorems at these cases -/

example := C80_tex exTexRxn true false (by decide +kernel)

example := C80_formula_partial ⟨none, .mol [.elem 'C' none, .elem 'O' none], some 2, ['s']⟩ ⟨none, .mol [.elem 'C' none, .elem 'O' none], none, ['s']⟩ (by decide) (by decide)

end Verif
