import Verif.Lemmas.Network
/-
C65: exactly which texts are read without ignoring any of it.
-/
namespace Verif
open Re

/-- A text that is a formula as a whole: coefficient and species, underscore, number of sites, site. -/
def WholeFormula (s : Str) : Prop :=
  ∃ w ns site, s = w ++ '_' :: (ns ++ site) ∧ (∀ c ∈ w, isWord c = true ∨ c = '*' ∨ c = '-') ∧ (∀ c ∈ ns, isDigit c = true) ∧
    (∀ c ∈ site, isLetter c = true ∨ c = '*') ∧ site ≠ []

/-- What is reported accounts for every character of the text. -/
def FormulaAccounts (s : Str) (f : Formula) : Prop :=
  ∃ ds ns, s = ds ++ (f.species ++ '_' :: (ns ++ f.site)) ∧ f.speciesSite = f.species ++ '_' :: (ns ++ f.site) ∧
    (∀ c ∈ ds, isDigit c = true) ∧ (∀ c ∈ ns, isDigit c = true) ∧
    f.stoich = (if ds = [] then 1 else intOf ds) ∧ f.nsite = (if ns = [] then 1 else intOf ns)

theorem wholeFormula_ok {s : Str} (h : WholeFormula s) : ∃ f, chemFormula s = .ok f ∧ FormulaAccounts s f := by
  obtain ⟨w, ns, site, rfl, hw, hns, hsite, hne⟩ := h
  have hsplit := List.takeWhile_append_dropWhile (p := isDigit) (l := w)
  have hds : ∀ c ∈ w.takeWhile isDigit, isDigit c = true := fun c hc => List.all_eq_true.mp List.all_takeWhile c hc
  have hr := chemFormula_render (ds := w.takeWhile isDigit) (sp := w.dropWhile isDigit) (ns := ns) (site := site) hds
    (fun c hc => by
      have := hw c ((List.dropWhile_sublist _).mem hc)
      simpa [isSpChar, or_assoc] using this)
    (fun c hc => by
      cases hd : w.dropWhile isDigit with
      | nil => rw [hd] at hc; cases hc
      | cons x l =>
        rw [hd] at hc
        have := List.head_dropWhile_not isDigit (l := w) (by rw [hd]; simp)
        simp only [hd, List.head_cons] at this
        simp only [List.head?_cons, Option.some.injEq] at hc
        rw [← hc]
        exact this)
    hns (fun c hc => by simpa [isSiteChar] using hsite c hc) hne
  rw [← List.append_assoc, hsplit] at hr
  refine ⟨_, hr, w.takeWhile isDigit, ns, ?_, rfl, hds, hns, rfl, rfl⟩
  dsimp only
  rw [← List.append_assoc, hsplit]

/-- **C65** Nothing of an accepted formula is ignored exactly if the text is a formula as a whole; such texts are always accepted. -/
theorem C65_formula_iff (s : Str) :
    (∃ f, chemFormula s = .ok f ∧ FormulaAccounts s f) ↔ WholeFormula s := by
  refine ⟨?_, wholeFormula_ok⟩
  rintro ⟨f, hf, ds, ns, h1, h2, h3, h4, -, -⟩
  unfold chemFormula at hf
  split at hf
  · cases hf
  · rename_i d sp n site hs
    cases hf
    obtain ⟨pre, suf, -, hm⟩ := search_sound hs
    obtain ⟨post, -, -, k5, -, k7, k8⟩ := formulaAt_sound hm
    refine ⟨ds ++ sp, ns, site, by rw [h1]; simp, fun c hc => ?_, h4, fun c hc => by simpa [isSiteChar] using k7 c hc, k8⟩
    rcases List.mem_append.mp hc with hc | hc
    · exact .inl (by have := h3 c hc; unfold isWord; simp [this])
    · simpa [isSpChar, or_assoc] using k5 c hc

theorem WholeFormula.chars {s : Str} (h : WholeFormula s) : ∀ c ∈ s, isSpChar c = true := by
  obtain ⟨w, ns, site, rfl, hw, hns, hsite, -⟩ := h
  intro c hc
  rcases List.mem_append.mp hc with hc | hc
  · simpa [isSpChar, or_assoc] using hw c hc
  · rcases List.mem_cons.mp hc with rfl | hc
    · decide
    · rcases List.mem_append.mp hc with hc | hc
      · have := hns c hc
        simp [isSpChar, isWord, this]
      · rcases hsite c hc with h | h
        · simp [isSpChar, isWord, h]
        · simp [isSpChar, h]

example : WholeFormula (str! "2H2O-x_3s") ∧ ¬ WholeFormula (str! "2 O_s") :=
  ⟨⟨str! "2H2O-x", str! "3", str! "s", rfl, by decide, by decide, by decide, by decide⟩, fun h => absurd h.chars (by decide)⟩

/-- The arrow of an equation. -/
def arrowOf (both : Bool) : Str := if both then ['<', '-', '>'] else ['-', '>']

/-- The texts between arrows. -/
def EqnParts (s : Str) (parts : List Str) : Prop :=
  (∀ p ∈ parts, ∀ c ∈ p, c ≠ '<' ∧ c ≠ '>') ∧
  ((∃ a b r, parts = [a, b] ∧ s = a ++ (arrowOf r ++ b)) ∨ (∃ a b c r r', parts = [a, b, c] ∧ s = a ++ (arrowOf r ++ (b ++ (arrowOf r' ++ c)))))

theorem star_arrowOf {β : Type} {r : Bool} {a s : Str} {k : Str → Str → Option β} {x : β}
    (ha : ∀ c ∈ a, notAngle c = true) (hk : k a s = some x) :
    star notAngle (a ++ (arrowOf r ++ s)) (fun g s1 => arrow s1 (k g)) = some x := by
  cases r with
  | true =>
    refine star_backtrack (x := '<') (s := '-' :: '>' :: s) ha (fun h => absurd h (by decide)) ?_
    simp [arrow, lit, alt, hk]
  | false =>
    refine star_backtrack (x := '-') (s := '>' :: s) ha (fun _ => ?_) ?_
    · rw [star_stop (by intro c hc; simp at hc; subst hc; decide)]
      simp [arrow, lit, alt]
    · simp [arrow, lit, alt, hk]

theorem eqnParts_states {s : Str} {parts : List Str} (h : EqnParts s parts) :
    eqnStates s = .ok ((parts.filter (· ≠ [])).map strip) := by
  obtain ⟨h0, h⟩ := h
  have h0' : ∀ p ∈ parts, ∀ c ∈ p, notAngle c = true := fun p hp c hc => by
    have := h0 p hp c hc
    simp [notAngle, this.1, this.2]
  rcases h with ⟨a, b, r, rfl, rfl⟩ | ⟨a, b, c, r, r', rfl, rfl⟩
  · have ha := h0' a (by simp)
    have hb := h0' b (by simp)
    have hs : search statesAt (a ++ (arrowOf r ++ b)) = some (a, none, b) := by
      apply search_here
      refine star_arrowOf (k := fun g1 s2 => alt
        (star notAngle s2 fun g2 s3 => arrow s3 fun s4 => star notAngle s4 fun g3 _ => some (g1, some g2, g3))
        (star notAngle s2 fun g3 _ => some (g1, none, g3))) ha ?_
      have h1 : (star notAngle b fun g2 s3 => arrow s3 fun s4 => star notAngle s4 fun g3 _ => some (a, some g2, g3)) = none := by
        apply star_eq_none
        intro w t hwt
        apply arrow_none_of_no_gt
        intro hc
        exact not_mem_gt hb (by rw [← hwt]; simp [hc])
      rw [h1]
      exact star_all hb rfl
    unfold eqnStates
    rw [hs]
    rfl
  · have ha := h0' a (by simp)
    have hb := h0' b (by simp)
    have hc := h0' c (by simp)
    have hs : search statesAt (a ++ (arrowOf r ++ (b ++ (arrowOf r' ++ c)))) = some (a, some b, c) := by
      apply search_here
      refine star_arrowOf (k := fun g1 s2 => alt
        (star notAngle s2 fun g2 s3 => arrow s3 fun s4 => star notAngle s4 fun g3 _ => some (g1, some g2, g3))
        (star notAngle s2 fun g3 _ => some (g1, none, g3))) ha ?_
      have h1 : (star notAngle (b ++ (arrowOf r' ++ c)) fun g2 s3 => arrow s3 fun s4 => star notAngle s4 fun g3 _ => some (a, some g2, g3))
          = some (a, some b, c) :=
        star_arrowOf (k := fun g2 s4 => star notAngle s4 fun g3 _ => some (a, some g2, g3)) hb (star_all hc rfl)
      rw [h1]
      rfl
    unfold eqnStates
    rw [hs]
    rfl

/-- What is between arrows and pluses, without the blanks around it. -/
def statePieces (t : Str) : List Str := (splitOn '+' t).map strip

/-- The formulas reported account for every character of an equation except arrows, pluses and the blanks around them. -/
def EqnAccounts (s : Str) (fss : List (List Formula)) : Prop :=
  ∃ parts, EqnParts s parts ∧
    List.Forall₂ (fun t fs => List.Forall₂ FormulaAccounts (statePieces t) fs) ((parts.filter (· ≠ [])).map strip) fss

/-- A text that is an equation as a whole: one or two arrows, and formulas between them and pluses. -/
def WholeEquation (s : Str) : Prop :=
  ∃ parts, EqnParts s parts ∧ ∀ t ∈ (parts.filter (· ≠ [])).map strip, ∀ p ∈ statePieces t, WholeFormula p

theorem mapM_forall₂ {α β : Type} {f : α → Py β} {P : α → β → Prop} : ∀ {l : List α}, (∀ x ∈ l, ∃ y, f x = .ok y ∧ P x y) →
    ∃ k, l.mapM f = .ok k ∧ List.Forall₂ P l k
  | [], _ => ⟨[], rfl, .nil⟩
  | x :: l, h => by
    obtain ⟨y, hy, hp⟩ := h x (by simp)
    obtain ⟨ys, hys, hps⟩ := mapM_forall₂ (l := l) fun z hz => h z (by simp [hz])
    exact ⟨y :: ys, by rw [List.mapM_cons, hy, hys]; rfl, .cons hp hps⟩

theorem forall₂_mapM {α β : Type} {f : α → Py β} {P : α → β → Prop} {Q : α → Prop} (hq : ∀ x, (∃ y, f x = .ok y ∧ P x y) → Q x) :
    ∀ {l : List α} {k : List β}, l.mapM f = .ok k → List.Forall₂ P l k → ∀ x ∈ l, Q x
  | [], _, _, _, x, hx => by cases hx
  | a :: l, k, h, hp, x, hx => by
    rw [List.mapM_cons] at h
    cases ha : f a with
    | error e => rw [ha] at h; cases h
    | ok y =>
      rw [ha] at h
      cases hl : l.mapM f with
      | error e => rw [hl] at h; cases h
      | ok ys =>
        rw [hl] at h
        cases h
        cases hp with
        | cons h1 h2 =>
          rcases List.mem_cons.mp hx with rfl | hx
          · exact hq _ ⟨y, ha, h1⟩
          · exact forall₂_mapM hq hl h2 x hx

/-- **C65** Nothing of an accepted equation is ignored exactly if the text is an equation as a whole; such texts are always accepted. -/
theorem C65_equation_iff (s : Str) : (∃ fss, eqnFormulas s = .ok fss ∧ EqnAccounts s fss) ↔ WholeEquation s := by
  constructor
  · rintro ⟨fss, hf, parts, hp, h2⟩
    refine ⟨parts, hp, ?_⟩
    unfold eqnFormulas at hf
    rw [eqnParts_states hp] at hf
    refine forall₂_mapM (Q := fun t => ∀ p ∈ statePieces t, WholeFormula p) (fun t ht => ?_) hf h2
    obtain ⟨fs, h3, h4⟩ := ht
    exact forall₂_mapM (Q := WholeFormula) (fun p hp => (C65_formula_iff p).mp hp) h3 h4
  · rintro ⟨parts, hp, h⟩
    unfold eqnFormulas
    rw [eqnParts_states hp]
    obtain ⟨fss, h1, h2⟩ := mapM_forall₂ (f := stateFormulas) (P := fun t fs => List.Forall₂ FormulaAccounts (statePieces t) fs)
      (l := (parts.filter (· ≠ [])).map strip) fun t ht => mapM_forall₂ fun p hp => wholeFormula_ok (h t ht p hp)
    exact ⟨fss, h1, parts, hp, h2⟩

example : WholeEquation (str! "CO_s + O_s <-> CO-O_2s -> CO2_g + 2*_s") := by
  refine ⟨[str! "CO_s + O_s ", str! " CO-O_2s ", str! " CO2_g + 2*_s"], ⟨by decide, .inr ⟨_, _, _, true, false, rfl, rfl⟩⟩, ?_⟩
  have key : ∀ p ∈ ([str! "CO_s", str! "O_s", str! "CO-O_2s", str! "CO2_g", str! "2*_s"] : List Str), WholeFormula p := by
    intro p hp
    simp only [List.mem_cons, List.not_mem_nil, or_false] at hp
    rcases hp with rfl | rfl | rfl | rfl | rfl
    · exact ⟨str! "CO", [], str! "s", rfl, by decide, by decide, by decide, by decide⟩
    · exact ⟨str! "O", [], str! "s", rfl, by decide, by decide, by decide, by decide⟩
    · exact ⟨str! "CO-O", str! "2", str! "s", rfl, by decide, by decide, by decide, by decide⟩
    · exact ⟨str! "CO2", [], str! "g", rfl, by decide, by decide, by decide, by decide⟩
    · exact ⟨str! "2*", [], str! "s", rfl, by decide, by decide, by decide, by decide⟩
  intro t ht p hp
  refine key p ?_
  have e : (([str! "CO_s + O_s ", str! " CO-O_2s ", str! " CO2_g + 2*_s"].filter (· ≠ [])).map strip).flatMap statePieces
      = [str! "CO_s", str! "O_s", str! "CO-O_2s", str! "CO2_g", str! "2*_s"] := by decide +kernel
  rw [← e]
  exact List.mem_flatMap.mpr ⟨t, ht, hp⟩

/-- A fourth state is ignored: the text is no equation as a whole. -/
example : ¬ WholeEquation (str! "A_s -> B_s -> C_s -> D_s") := by
  rintro ⟨parts, ⟨h0, h⟩, -⟩
  have gt : ∀ p ∈ parts, p.count '>' = 0 := fun p hp => List.count_eq_zero.mpr fun hc => (h0 p hp _ hc).2 rfl
  rcases h with ⟨a, b, r, rfl, h⟩ | ⟨a, b, c, r, r', rfl, h⟩
  · have := congrArg (List.count '>') h
    have ha := gt a (by simp)
    have hb := gt b (by simp)
    revert this
    cases r <;> simp [arrowOf, ha, hb]
  · have := congrArg (List.count '>') h
    have ha := gt a (by simp)
    have hb := gt b (by simp)
    have hc := gt c (by simp)
    revert this
    cases r <;> cases r' <;> simp [arrowOf, ha, hb, hc]

end Verif
