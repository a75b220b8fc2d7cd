import Verif.Model.Rxn
import Verif.Spec.Rxn
import Verif.Lemmas.Regex
import Verif.Lemmas.Dict
import Verif.Lemmas.Chars
namespace Verif
open Re

/-! ### formulas -/

theorem isSpChar_iff (c : Char) : isSpChar c = true ↔
    isLetter c = true ∨ isDigit c = true ∨ c.toNat = 95 ∨ c.toNat = 42 ∨ c.toNat = 45 := by
  simp [isSpChar, isWord, char_eq_iff, or_assoc]

theorem isSiteChar_iff (c : Char) : isSiteChar c = true ↔ isLetter c = true ∨ c.toNat = 42 := by
  simp [isSiteChar, char_eq_iff]

theorem formulaAt_render {ds sp ns site : Str}
    (hds : ∀ c ∈ ds, isDigit c = true)
    (hsp : ∀ c ∈ sp, isSpChar c = true) (hsp0 : ∀ c, sp.head? = some c → isDigit c = false)
    (hns : ∀ c ∈ ns, isDigit c = true)
    (hsite : ∀ c ∈ site, isSiteChar c = true) (hne : site ≠ []) :
    formulaAt (ds ++ (sp ++ '_' :: (ns ++ site))) = some (ds, sp, ns, site) := by
  unfold formulaAt
  apply star_append hds
  rw [star_stop]
  · apply star_last_sep (k := fun w r => star isDigit r fun n s4 =>
      plus isSiteChar s4 fun site _ => some (ds ++ [], w, n, site)) (by decide) hsp
    · intro h
      rcases List.mem_append.mp h with h | h
      · have := hns _ h; revert this; decide
      · have := hsite _ h; revert this; decide
    · apply star_append hns
      rw [star_stop]
      · have := plus_append (p := isSiteChar) (b := [])
          (k := fun site _ => some (ds ++ [], sp, ns ++ [], site)) (x := (ds, sp, ns, site)) hne hsite
          (by simp [star])
        simpa using this
      · intro c hc
        have h1 := hsite c (List.mem_of_head? hc)
        rw [isSiteChar_iff, isLetter_iff] at h1
        rw [Bool.eq_false_iff, Ne, isDigit_iff]
        omega
  · intro c hc
    cases sp with
    | nil => simp at hc; subst hc; decide
    | cons x xs => exact hsp0 c (by simpa using hc)

theorem chemFormula_render {ds sp ns site : Str}
    (hds : ∀ c ∈ ds, isDigit c = true)
    (hsp : ∀ c ∈ sp, isSpChar c = true) (hsp0 : ∀ c, sp.head? = some c → isDigit c = false)
    (hns : ∀ c ∈ ns, isDigit c = true)
    (hsite : ∀ c ∈ site, isSiteChar c = true) (hne : site ≠ []) :
    chemFormula (ds ++ (sp ++ '_' :: (ns ++ site))) =
      .ok { text := ds ++ (sp ++ '_' :: (ns ++ site)), stoich := intOr1 ds, species := sp,
            nsite := intOr1 ns, site := site, speciesSite := sp ++ '_' :: (ns ++ site) } := by
  unfold chemFormula
  rw [search_here (formulaAt_render hds hsp hsp0 hns hsite hne)]

theorem formulaAt_sound {s ds sp ns site : Str} (h : formulaAt s = some (ds, sp, ns, site)) :
    ∃ post, s = ds ++ (sp ++ '_' :: (ns ++ site)) ++ post ∧ (∀ c ∈ ds, isDigit c = true) ∧
      (∀ c ∈ sp, isSpChar c = true) ∧ (∀ c ∈ ns, isDigit c = true) ∧
      (∀ c ∈ site, isSiteChar c = true) ∧ site ≠ [] := by
  unfold formulaAt at h
  obtain ⟨w1, r1, h1, hw1, h⟩ := star_sound h
  obtain ⟨w2, r2, h2, hw2, h⟩ := star_sound h
  obtain ⟨r3, h3, h⟩ := lit_sound h
  obtain ⟨w4, r4, h4, hw4, h⟩ := star_sound h
  obtain ⟨w5, r5, h5, hne, hw5, h⟩ := plus_sound h
  cases h
  exact ⟨r5, by simp [h1, h2, h3, h4, h5], hw1, hw2, hw4, hw5, hne⟩

theorem star_complete {β : Type _} {p : Char → Bool} {w r : Str} {k : Str → Str → Option β}
    (hw : ∀ c ∈ w, p c = true) (hk : (k w r).isSome) : (star p (w ++ r) k).isSome := by
  induction w generalizing k with
  | nil =>
    cases r with
    | nil => simpa [star] using hk
    | cons c cs =>
      simp only [List.nil_append, star]
      split
      · split <;> simp_all
      · simpa using hk
  | cons c w ih =>
    have := ih (k := fun w r => k (c :: w) r) (fun d hd => hw d (by simp [hd])) hk
    simp only [List.cons_append, star, hw c (by simp), if_true]
    split
    · simp
    · rename_i h; simp [h] at this

theorem search_complete {β : Type _} {m : Str → Option β} {pre suf : Str} (h : (m suf).isSome) :
    (search m (pre ++ suf)).isSome := by
  induction pre with
  | nil =>
    cases suf with
    | nil => simpa [search] using h
    | cons c cs =>
      simp only [List.nil_append, search]
      split <;> simp_all
  | cons c pre ih =>
    simp only [List.cons_append, search]
    split
    · simp
    · exact ih

theorem chemFormula_isOk_of_pattern {pre ns post : Str} {c : Char}
    (hns : ∀ d ∈ ns, isDigit d = true) (hc : isSiteChar c = true) :
    ∃ f, chemFormula (pre ++ '_' :: (ns ++ c :: post)) = .ok f := by
  have h : (search formulaAt (pre ++ '_' :: (ns ++ c :: post))).isSome := by
    apply search_complete
    unfold formulaAt
    apply star_complete (w := []) (r := '_' :: (ns ++ c :: post)) (by simp)
    apply star_complete (w := []) (r := '_' :: (ns ++ c :: post)) (by simp)
    simp only [lit, if_true]
    apply star_complete hns
    simp only [plus, hc, if_true]
    exact star_complete (w := []) (r := post) (by simp) (by simp)
  unfold chemFormula
  rcases hs : search formulaAt (pre ++ '_' :: (ns ++ c :: post)) with _ | ⟨a, b, d, e⟩
  · simp [hs] at h
  · exact ⟨_, rfl⟩

/-! ### element tokens -/

theorem isSiteChar_of_letter {c : Char} (h : isLetter c = true) : isSiteChar c = true := by
  simp [isSiteChar, h]

theorem not_isSiteChar_of_digit {c : Char} (h : isDigit c = true) : isSiteChar c = false := by
  rw [Bool.eq_false_iff, Ne, isSiteChar_iff, isLetter_iff]
  rw [isDigit_iff] at h
  omega

theorem spTokens_digits {ds s : Str} (h : ∀ c ∈ ds, isDigit c = true) :
    spTokens (ds ++ s) = spTokens s := by
  induction ds with
  | nil => rfl
  | cons c ds ih =>
    simp only [List.cons_append, spTokens, not_isSiteChar_of_digit (h c (by simp))]
    exact ih (fun d hd => h d (by simp [hd]))

theorem takeWhile_digits {ds s : Str} (h : ∀ c ∈ ds, isDigit c = true)
    (hs : ∀ c, s.head? = some c → isDigit c = false) : (ds ++ s).takeWhile isDigit = ds := by
  induction ds with
  | nil =>
    cases s with
    | nil => rfl
    | cons c cs => simp [hs c rfl]
  | cons c ds ih =>
    simp only [List.cons_append, List.takeWhile, h c (by simp)]
    rw [ih (fun d hd => h d (by simp [hd]))]

theorem numText_digits (n : Option Nat) : ∀ c ∈ Spec.numText n, isDigit c = true := by
  cases n with
  | none => simp [Spec.numText]
  | some n => exact digits_toDigits n

theorem intOr1_numText (n : Option Nat) : intOr1 (Spec.numText n) = n.getD 1 := by
  cases n with
  | none => rfl
  | some n => simp [intOr1, Spec.numText, Nat.toDigits_ne_nil, intOf_toDigits]

/-- The letters and counts of a list of pieces, as the expression should find them. -/
def tokPairs : List Spec.Tok → List (Char × Str)
  | [] => []
  | .elem c n :: ts => (c, Spec.numText n) :: tokPairs ts
  | .dash :: ts => tokPairs ts

theorem flatMap_text_head {ts : List Spec.Tok} (hok : ∀ t ∈ ts, t.ok = true) :
    ∀ c, (ts.flatMap Spec.Tok.text).head? = some c → isDigit c = false := by
  intro c hc
  cases ts with
  | nil => simp at hc
  | cons t ts =>
    have ht := hok t (by simp)
    cases t with
    | elem a n =>
      simp [Spec.Tok.text] at hc
      subst hc
      simp only [Spec.Tok.ok] at ht
      rw [isLetter_iff] at ht
      rw [Bool.eq_false_iff, Ne, isDigit_iff]
      omega
    | dash =>
      simp [Spec.Tok.text] at hc
      subst hc; decide

theorem spTokens_text {ts : List Spec.Tok} (hok : ∀ t ∈ ts, t.ok = true) :
    spTokens (ts.flatMap Spec.Tok.text) = tokPairs ts := by
  induction ts with
  | nil => rfl
  | cons t ts ih =>
    have ih := ih (fun t ht => hok t (by simp [ht]))
    have ht := hok t (by simp)
    have hh := flatMap_text_head (ts := ts) (fun t ht => hok t (by simp [ht]))
    cases t with
    | elem a n =>
      simp only [Spec.Tok.ok] at ht
      simp only [List.flatMap_cons, Spec.Tok.text, List.cons_append, spTokens,
        isSiteChar_of_letter ht, if_true, tokPairs]
      rw [takeWhile_digits (numText_digits n) hh, spTokens_digits (numText_digits n), ih]
    | dash =>
      simp only [List.flatMap_cons, Spec.Tok.text, List.cons_append, List.nil_append, spTokens,
        tokPairs]
      rw [if_neg (by decide)]
      exact ih

theorem tokPairs_sum (ts : List Spec.Tok) (e : Char) :
    ((tokPairs ts).map (fun t => if t.1 = e then intOr1 t.2 else 0)).sum
      = (ts.map (Spec.Tok.count e)).sum := by
  induction ts with
  | nil => rfl
  | cons t ts ih => cases t <;> simp [tokPairs, Spec.Tok.count, intOr1_numText, ih]

theorem tokPairs_mem (ts : List Spec.Tok) (e : Char) :
    (∃ x ∈ tokPairs ts, x.1 = e) ↔ ts.any (Spec.Tok.mentions e) = true := by
  induction ts with
  | nil => simp [tokPairs]
  | cons t ts ih =>
    cases t with
    | elem c n =>
      simp only [tokPairs, List.mem_cons, exists_eq_or_imp, ih, List.any_cons, Bool.or_eq_true,
        Spec.Tok.mentions, beq_iff_eq]
    | dash => simp only [tokPairs, ih, List.any_cons, Spec.Tok.mentions, Bool.false_or]

theorem text_ne_star {ts : List Spec.Tok} (hok : ∀ t ∈ ts, t.ok = true) :
    ts.flatMap Spec.Tok.text ≠ ['*'] := by
  intro h
  cases ts with
  | nil => simp at h
  | cons t ts =>
    have ht := hok t (by simp)
    cases t with
    | elem a n =>
      simp [Spec.Tok.text] at h
      obtain ⟨h, -⟩ := h
      subst h
      simp only [Spec.Tok.ok] at ht
      revert ht; decide
    | dash => simp [Spec.Tok.text] at h

theorem speciesElements_nodup (sp : Str) : (Dict.keys (speciesElements sp)).Nodup := by
  unfold speciesElements
  split
  · simp [Dict.keys]
  · exact Dict.nodup_foldl_bump _ _ _ _ (by simp [Dict.keys])

theorem val_speciesElements {sp : Spec.Species} (hok : sp.ok = true) (e : Char) :
    Dict.val (speciesElements sp.text) e = sp.count e := by
  cases sp with
  | emptySite => simp [Spec.Species.text, speciesElements, Spec.Species.count, Dict.val, Dict.get?]
  | mol ts =>
    have hok' : ∀ t ∈ ts, t.ok = true := by simpa [Spec.Species.ok] using hok
    simp only [Spec.Species.text, speciesElements, text_ne_star hok', if_false, spTokens_text hok']
    rw [Dict.val_foldl_bump, tokPairs_sum]
    simp [Spec.Species.count, Dict.val, Dict.get?]

theorem mem_keys_speciesElements {sp : Spec.Species} (hok : sp.ok = true) (e : Char) :
    e ∈ Dict.keys (speciesElements sp.text) ↔ sp.mentions e = true := by
  cases sp with
  | emptySite => simp [Spec.Species.text, speciesElements, Spec.Species.mentions, Dict.keys]
  | mol ts =>
    have hok' : ∀ t ∈ ts, t.ok = true := by simpa [Spec.Species.ok] using hok
    simp only [Spec.Species.text, speciesElements, text_ne_star hok', if_false, spTokens_text hok']
    rw [Dict.mem_keys_foldl_bump, tokPairs_mem]
    simp [Spec.Species.mentions, Dict.keys]

/-! ### the model value of a specified formula -/

/-- The object the parser should build for a specified formula. -/
def ofSpec (f : Spec.Formula) : Formula :=
  { text := f.text, stoich := f.coefficient, species := f.sp.text, nsite := f.nsite,
    site := f.site, speciesSite := f.speciesSite }

theorem species_chars {sp : Spec.Species} (hok : sp.ok = true) :
    (∀ c ∈ sp.text, isSpChar c = true ∧ c ≠ '_') ∧ (∀ c, sp.text.head? = some c → isDigit c = false) := by
  cases sp with
  | emptySite => simp [Spec.Species.text]; decide
  | mol ts =>
    have hok' : ∀ t ∈ ts, t.ok = true := by simpa [Spec.Species.ok] using hok
    refine ⟨?_, flatMap_text_head hok'⟩
    intro c hc
    simp only [Spec.Species.text, List.mem_flatMap] at hc
    obtain ⟨t, ht, hc⟩ := hc
    have h1 := hok' t ht
    cases t with
    | elem a n =>
      simp only [Spec.Tok.text, List.mem_cons] at hc
      simp only [Spec.Tok.ok] at h1
      rcases hc with rfl | hc
      · refine ⟨by rw [isSpChar_iff]; exact Or.inl h1, ?_⟩
        rintro rfl; revert h1; decide
      · have := numText_digits n c hc
        refine ⟨by rw [isSpChar_iff]; exact Or.inr (Or.inl this), ?_⟩
        rintro rfl; revert this; decide
    | dash =>
      simp only [Spec.Tok.text, List.mem_singleton] at hc
      subst hc; decide

theorem formula_ok_parts {f : Spec.Formula} (h : f.ok = true) :
    f.sp.ok = true ∧ f.site ≠ [] ∧ ∀ c ∈ f.site, isSiteChar c = true := by
  simp only [Spec.Formula.ok, Bool.and_eq_true, bne_iff_ne, List.all_eq_true] at h
  exact ⟨h.1.1, h.1.2, fun c hc => h.2 c hc⟩

theorem chemFormula_ofSpec {f : Spec.Formula} (h : f.ok = true) :
    chemFormula f.text = .ok (ofSpec f) := by
  obtain ⟨h1, h2, h3⟩ := formula_ok_parts h
  obtain ⟨h4, h5⟩ := species_chars h1
  have := chemFormula_render (numText_digits f.coef) (fun c hc => (h4 c hc).1) h5
    (numText_digits f.num) h3 h2
  simpa [ofSpec, Spec.Formula.text, Spec.Formula.speciesSite, intOr1_numText,
    Spec.Formula.coefficient, Spec.Formula.nsite] using this

/-- Characters of a formula text: no blanks, no `+`, no arrow characters. -/
theorem formula_text_chars {f : Spec.Formula} (h : f.ok = true) :
    ∀ c ∈ f.text, isSpace c = false ∧ c ≠ '+' ∧ c ≠ '<' ∧ c ≠ '>' := by
  obtain ⟨h1, h2, h3⟩ := formula_ok_parts h
  obtain ⟨h4, h5⟩ := species_chars h1
  have key : ∀ c, (isSpChar c = true ∨ isSiteChar c = true) →
      isSpace c = false ∧ c ≠ '+' ∧ c ≠ '<' ∧ c ≠ '>' := by
    intro c hc
    have hc' : isLetter c = true ∨ isDigit c = true ∨ c.toNat = 95 ∨ c.toNat = 42 ∨ c.toNat = 45 := by
      rcases hc with hc | hc
      · exact (isSpChar_iff c).mp hc
      · rcases (isSiteChar_iff c).mp hc with h | h <;> simp [h]
    rw [isLetter_iff, isDigit_iff] at hc'
    refine ⟨?_, ?_, ?_, ?_⟩
    · rw [Bool.eq_false_iff, Ne, isSpace_iff]; omega
    · rw [Ne, char_eq_iff]; simp; omega
    · rw [Ne, char_eq_iff]; simp; omega
    · rw [Ne, char_eq_iff]; simp; omega
  intro c hc
  simp only [Spec.Formula.text, Spec.Formula.speciesSite, List.mem_append, List.mem_cons] at hc
  rcases hc with hc | hc | hc | hc | hc
  · exact key c (Or.inl ((isSpChar_iff c).mpr (Or.inr (Or.inl (numText_digits _ c hc)))))
  · exact key c (Or.inl (h4 c hc).1)
  · subst hc; decide
  · exact key c (Or.inl ((isSpChar_iff c).mpr (Or.inr (Or.inl (numText_digits _ c hc)))))
  · exact key c (Or.inr (h3 c hc))

theorem formula_text_ne {f : Spec.Formula} : f.text ≠ [] := by
  simp [Spec.Formula.text, Spec.Formula.speciesSite]

theorem trim_of_no_space {s : Str} (h : ∀ c ∈ s, isSpace c = false) : Trim s :=
  ⟨fun c hc => h c (List.mem_of_head? hc), fun c hc => h c (List.mem_of_getLast? hc)⟩

/-! ### states -/

theorem splitOn_ne_nil (c : Char) (s : Str) : splitOn c s ≠ [] := by
  induction s with
  | nil => simp [splitOn]
  | cons x xs ih =>
    simp only [splitOn]
    split
    · simp
    · split <;> simp

theorem splitOn_state {s : Spec.State} (hne : s ≠ []) (hok : ∀ f ∈ s, f.ok = true) :
    stateSplit s.text = s.map Spec.Formula.text := by
  unfold stateSplit Spec.State.text
  induction s with
  | nil => exact absurd rfl hne
  | cons f fs ih =>
    have hf := formula_text_chars (hok f (by simp))
    have htrim : Trim f.text := trim_of_no_space (fun c hc => (hf c hc).1)
    have hplus : '+' ∉ f.text := fun hc => (hf _ hc).2.1 rfl
    cases fs with
    | nil =>
      simp only [List.map_cons, List.map_nil, joinWith]
      rw [splitOn_no hplus]
      simp [strip_trim htrim]
    | cons g gs =>
      have ih := ih (by simp) (fun f hf => hok f (by simp [hf]))
      simp only [List.map_cons, joinWith] at ih ⊢
      have hs : f.text ++ str! " + " ++ joinWith (str! " + ") (g.text :: gs.map Spec.Formula.text)
          = (f.text ++ [' ']) ++ '+' :: (' ' :: joinWith (str! " + ") (g.text :: gs.map Spec.Formula.text)) := by
        simp
      rw [hs, splitOn_append (by simp [hplus]), List.map_cons]
      have h1 : strip (f.text ++ [' ']) = f.text := by
        have := strip_pad (a := []) (s := f.text) (b := [' ']) (by simp) (by simp; decide) htrim
        simpa using this
      rw [h1]
      congr 1
      -- the leading blank of the remaining text only affects the first piece
      have hsplit : ∀ (t : Str), (splitOn '+' (' ' :: t)).map strip = (splitOn '+' t).map strip := by
        intro t
        simp only [splitOn, show ¬ (' ' = '+') by decide, if_false]
        rcases hsp : splitOn '+' t with _ | ⟨h, tl⟩
        · exact absurd hsp (splitOn_ne_nil _ _)
        · simp only [List.map_cons]
          congr 1
      rw [hsplit, ih]

theorem mapM_ok {α β : Type} {f : α → Py β} {g : α → β} {l : List α}
    (h : ∀ x ∈ l, f x = .ok (g x)) : l.mapM f = .ok (l.map g) := by
  induction l with
  | nil => rfl
  | cons x l ih =>
    rw [List.mapM_cons, h x (by simp), ih (fun y hy => h y (by simp [hy]))]
    rfl

theorem state_ok_parts {s : Spec.State} (h : s.ok = true) : s ≠ [] ∧ ∀ f ∈ s, f.ok = true := by
  simp only [Spec.State.ok, Bool.and_eq_true, bne_iff_ne, List.all_eq_true] at h
  exact h

theorem stateFormulas_ofSpec {s : Spec.State} (h : s.ok = true) :
    stateFormulas s.text = .ok (s.map ofSpec) := by
  obtain ⟨h1, h2⟩ := state_ok_parts h
  unfold stateFormulas
  rw [splitOn_state h1 h2, List.mapM_map]
  exact mapM_ok (fun f hf => chemFormula_ofSpec (h2 f hf))

theorem state_text_ne {s : Spec.State} (h : s.ok = true) : s.text ≠ [] := by
  obtain ⟨h1, -⟩ := state_ok_parts h
  cases s with
  | nil => exact absurd rfl h1
  | cons f fs =>
    cases fs with
    | nil => simpa [Spec.State.text, joinWith] using formula_text_ne
    | cons g gs => simp [Spec.State.text, joinWith]

theorem joinWith_mem {sep : Str} {l : List Str} {c : Char} (h : c ∈ joinWith sep l) :
    c ∈ sep ∨ ∃ x ∈ l, c ∈ x := by
  induction l with
  | nil => simp [joinWith] at h
  | cons x l ih =>
    cases l with
    | nil => simp [joinWith] at h; exact Or.inr ⟨x, by simp, h⟩
    | cons y l =>
      simp only [joinWith, List.mem_append] at h
      rcases h with (h | h) | h
      · exact Or.inr ⟨x, by simp, h⟩
      · exact Or.inl h
      · rcases ih h with h | ⟨z, hz, hc⟩
        · exact Or.inl h
        · exact Or.inr ⟨z, by simp [hz], hc⟩

theorem state_text_no_angle {s : Spec.State} (h : s.ok = true) :
    ∀ c ∈ s.text, notAngle c = true := by
  obtain ⟨-, h2⟩ := state_ok_parts h
  intro c hc
  rcases joinWith_mem hc with hc | ⟨x, hx, hc⟩
  · simp at hc; rcases hc with rfl | rfl | rfl <;> decide
  · obtain ⟨f, hf, rfl⟩ := List.mem_map.mp hx
    have := formula_text_chars (h2 f hf) c hc
    simp [notAngle, this.2.2.1, this.2.2.2]

theorem joinWith_getLast {sep : Str} {l : List Str} (hl : l ≠ []) (hne : ∀ x ∈ l, x ≠ []) :
    (joinWith sep l).getLast? = (l.getLast hl).getLast? := by
  induction l with
  | nil => exact absurd rfl hl
  | cons x l ih =>
    cases l with
    | nil => simp [joinWith]
    | cons y l =>
      have ih := ih (by simp) (fun z hz => hne z (by simp [hz]))
      simp only [joinWith]
      rw [List.getLast?_append, ih, List.getLast_cons (List.cons_ne_nil y l)]
      have : ((y :: l).getLast (by simp)) ≠ [] := hne _ (by
        right; exact List.getLast_mem _)
      rw [List.getLast?_eq_some_getLast this]
      rfl

theorem state_text_trim {s : Spec.State} (h : s.ok = true) : Trim s.text := by
  obtain ⟨h1, h2⟩ := state_ok_parts h
  constructor
  · intro c hc
    cases s with
    | nil => exact absurd rfl h1
    | cons f fs =>
      have hf := formula_text_chars (h2 f (by simp))
      have : f.text.head? = some c := by
        have hne := @formula_text_ne f
        cases hft : f.text with
        | nil => exact absurd hft hne
        | cons a as =>
          cases fs with
          | nil => simpa [Spec.State.text, joinWith, hft] using hc
          | cons g gs => simpa [Spec.State.text, joinWith, hft] using hc
      exact (hf c (List.mem_of_head? this)).1
  · intro c hc
    have hl : s.map Spec.Formula.text ≠ [] := by simpa using h1
    unfold Spec.State.text at hc
    rw [joinWith_getLast hl (by simp; intro f _; exact formula_text_ne)] at hc
    have hmem := List.getLast_mem hl
    obtain ⟨f, hf, he⟩ := List.mem_map.mp hmem
    rw [← he] at hc
    exact (formula_text_chars (h2 f hf) c (List.mem_of_getLast? hc)).1

/-! ### equations -/

theorem star_backtrack {β : Type _} {p : Char → Bool} {a s : Str} {x : Char}
    {k : Str → Str → Option β} {y : β} (ha : ∀ c ∈ a, p c = true)
    (hn : p x = true → star p s (fun w r => k (a ++ x :: w) r) = none)
    (hk : k a (x :: s) = some y) : star p (a ++ x :: s) k = some y := by
  apply star_append ha
  simp only [star]
  split
  · rename_i hx
    rw [hn hx]
    simpa using hk
  · simpa using hk

theorem star_all {β : Type _} {p : Char → Bool} {a : Str} {k : Str → Str → Option β} {y : β}
    (ha : ∀ c ∈ a, p c = true) (hk : k a [] = some y) : star p a k = some y := by
  have := star_append (b := []) (k := k) (x := y) ha (by simpa [star] using hk)
  simpa using this

theorem arrow_sound {β : Type} {s : Str} {k : Str → Option β} {x : β} (h : arrow s k = some x) :
    ∃ r, (s = '<' :: '-' :: '>' :: r ∨ s = '-' :: '>' :: r) ∧ k r = some x := by
  unfold arrow at h
  rcases alt_some h with h | h
  · obtain ⟨r, h1, h2⟩ := lit_sound h; exact ⟨r, Or.inl h1, h2⟩
  · obtain ⟨r, h1, h2⟩ := lit_sound h; exact ⟨r, Or.inr h1, h2⟩

theorem arrow_none_of_no_gt {β : Type} {s : Str} {k : Str → Option β} (h : '>' ∉ s) :
    arrow s k = none := by
  cases hr : arrow s k with
  | none => rfl
  | some x =>
    obtain ⟨r, h1, -⟩ := arrow_sound hr
    rcases h1 with rfl | rfl <;> simp at h

theorem arrow_here {β : Type} {r1 : Bool} {s : Str} {k : Str → Option β} {x : β}
    (hk : k (' ' :: s) = some x) : arrow ((Spec.arrowText r1).tail ++ s) k = some x := by
  cases r1 <;> simp [arrow, Spec.arrowText, lit, alt, hk]

theorem not_mem_gt {s : Str} (h : ∀ c ∈ s, notAngle c = true) : '>' ∉ s := by
  intro hc; have := h _ hc; revert this; decide

/-- A state text followed by an arrow: the greedy group stops right before the arrow. -/
theorem star_state_arrow {β : Type} {r1 : Bool} {a s : Str} {k : Str → Str → Option β} {x : β}
    (ha : ∀ c ∈ a, notAngle c = true) (hk : k (a ++ [' ']) (' ' :: s) = some x) :
    star notAngle (a ++ (Spec.arrowText r1 ++ s)) (fun g s1 => arrow s1 (k g)) = some x := by
  have hsplit : a ++ (Spec.arrowText r1 ++ s) = (a ++ [' ']) ++ ((Spec.arrowText r1).tail ++ s) := by
    cases r1 <;> simp [Spec.arrowText]
  have ha' : ∀ c ∈ a ++ [' '], notAngle c = true := by
    intro c hc
    rcases List.mem_append.mp hc with hc | hc
    · exact ha c hc
    · simp at hc; subst hc; decide
  rw [hsplit]
  cases r1 with
  | true =>
    apply star_backtrack (x := '<') (s := '-' :: '>' :: ' ' :: s) ha'
    · intro h; exact absurd h (by decide)
    · exact arrow_here (r1 := true) hk
  | false =>
    apply star_backtrack (x := '-') (s := '>' :: ' ' :: s) ha'
    · intro _
      rw [star_stop (by intro c hc; simp at hc; subst hc; decide)]
      simp [arrow, lit, alt]
    · exact arrow_here (r1 := false) hk

theorem search_states {a : Str} {r1 : Bool} {s : Str} {x} (ha : ∀ c ∈ a, notAngle c = true)
    (hk : alt
        (star notAngle (' ' :: s) fun g2 s3 =>
          arrow s3 fun s4 =>
            star notAngle s4 fun g3 _ => some (a ++ [' '], some g2, g3))
        (star notAngle (' ' :: s) fun g3 _ => some (a ++ [' '], none, g3)) = some x) :
    search statesAt (a ++ (Spec.arrowText r1 ++ s)) = some x := by
  apply search_here
  exact star_state_arrow (k := fun g1 s2 => alt
        (star notAngle s2 fun g2 s3 =>
          arrow s3 fun s4 =>
            star notAngle s4 fun g3 _ => some (g1, some g2, g3))
        (star notAngle s2 fun g3 _ => some (g1, none, g3))) ha hk

theorem notAngle_cons_space {b : Str} (hb : ∀ c ∈ b, notAngle c = true) :
    ∀ c ∈ ' ' :: b, notAngle c = true := by
  intro c hc
  rcases List.mem_cons.mp hc with rfl | hc
  · decide
  · exact hb c hc

theorem eqnStates_two {a b : Str} {r1 : Bool}
    (ha : ∀ c ∈ a, notAngle c = true) (hb : ∀ c ∈ b, notAngle c = true)
    (hta : Trim a) (htb : Trim b) :
    eqnStates (a ++ (Spec.arrowText r1 ++ b)) = .ok [a, b] := by
  have hs : search statesAt (a ++ (Spec.arrowText r1 ++ b)) = some (a ++ [' '], none, ' ' :: b) := by
    apply search_states ha
    have h1 : (star notAngle (' ' :: b) fun g2 s3 => arrow s3 fun s4 =>
            star notAngle s4 fun g3 _ => some (a ++ [' '], some g2, g3)) = none := by
      apply star_eq_none
      intro w r hwr
      apply arrow_none_of_no_gt
      intro hc
      exact not_mem_gt (notAngle_cons_space hb) (by rw [← hwr]; simp [hc])
    rw [h1]
    exact star_all (notAngle_cons_space hb) rfl
  unfold eqnStates
  rw [hs]
  have p1 : strip (a ++ [' ']) = a := by
    simpa using strip_pad (a := []) (s := a) (b := [' ']) (by simp) (by simp; decide) hta
  have p2 : strip (' ' :: b) = b := by
    simpa using strip_pad (a := [' ']) (s := b) (b := []) (by simp; decide) (by simp) htb
  simp [p1, p2]

theorem eqnStates_three {a b c : Str} {r1 r2 : Bool}
    (ha : ∀ x ∈ a, notAngle x = true) (hb : ∀ x ∈ b, notAngle x = true)
    (hc : ∀ x ∈ c, notAngle x = true)
    (hta : Trim a) (htb : Trim b) (htc : Trim c) :
    eqnStates (a ++ (Spec.arrowText r1 ++ (b ++ (Spec.arrowText r2 ++ c)))) = .ok [a, b, c] := by
  have hs : search statesAt (a ++ (Spec.arrowText r1 ++ (b ++ (Spec.arrowText r2 ++ c))))
      = some (a ++ [' '], some (' ' :: b ++ [' ']), ' ' :: c) := by
    apply search_states ha
    have h1 : (star notAngle (' ' :: (b ++ (Spec.arrowText r2 ++ c))) fun g2 s3 => arrow s3 fun s4 =>
            star notAngle s4 fun g3 _ => some (a ++ [' '], some g2, g3))
        = some (a ++ [' '], some (' ' :: b ++ [' ']), ' ' :: c) :=
      star_state_arrow (a := ' ' :: b)
        (k := fun g2 s4 => star notAngle s4 fun g3 _ => some (a ++ [' '], some g2, g3))
        (notAngle_cons_space hb) (star_all (notAngle_cons_space hc) rfl)
    rw [h1]
    rfl
  unfold eqnStates
  rw [hs]
  have p1 : strip (a ++ [' ']) = a := by
    simpa using strip_pad (a := []) (s := a) (b := [' ']) (by simp) (by simp; decide) hta
  have p2 : strip (' ' :: (b ++ [' '])) = b := by
    simpa using strip_pad (a := [' ']) (s := b) (b := [' ']) (by simp; decide) (by simp; decide) htb
  have p3 : strip (' ' :: c) = c := by
    simpa using strip_pad (a := [' ']) (s := c) (b := []) (by simp; decide) (by simp) htc
  simp [p1, p2, p3]

theorem rxn_ok_states {r : Spec.Rxn} (h : r.ok = true) : ∀ s ∈ r.states, s.ok = true := by
  simpa [Spec.Rxn.ok] using h

theorem eqnStates_ofSpec {r : Spec.Rxn} {r1 r2 : Bool} (h : r.ok = true) :
    eqnStates (r.text r1 r2) = .ok (r.states.map Spec.State.text) := by
  have h' := rxn_ok_states h
  cases r with
  | two a b =>
    have ha := h' a (by simp [Spec.Rxn.states])
    have hb := h' b (by simp [Spec.Rxn.states])
    have := eqnStates_two (r1 := r1) (state_text_no_angle ha) (state_text_no_angle hb)
      (state_text_trim ha) (state_text_trim hb)
    simpa [Spec.Rxn.text, Spec.Rxn.states] using this
  | three a b c =>
    have ha := h' a (by simp [Spec.Rxn.states])
    have hb := h' b (by simp [Spec.Rxn.states])
    have hc := h' c (by simp [Spec.Rxn.states])
    have := eqnStates_three (r1 := r1) (r2 := r2) (state_text_no_angle ha) (state_text_no_angle hb)
      (state_text_no_angle hc) (state_text_trim ha) (state_text_trim hb) (state_text_trim hc)
    simpa [Spec.Rxn.text, Spec.Rxn.states] using this

theorem eqnFormulas_ofSpec {r : Spec.Rxn} {r1 r2 : Bool} (h : r.ok = true) :
    eqnFormulas (r.text r1 r2) = .ok (r.states.map (·.map ofSpec)) := by
  unfold eqnFormulas
  rw [eqnStates_ofSpec h]
  show (r.states.map Spec.State.text).mapM stateFormulas = _
  rw [List.mapM_map]
  exact mapM_ok (fun s hs => stateFormulas_ofSpec (rxn_ok_states h s hs))

end Verif
