import Verif.Lemmas.Revert
/-
Properties C01-C04, C06, C07, C65: the reaction notation.
-/
namespace Verif
open Re Dict

/-! ## C01 a formula text is read back exactly -/

/-- Writing coefficient, species, site number and site and parsing the text gives exactly
these back; omitted numbers are read as 1. -/
theorem C01_formula_roundtrip (coef num : Option Nat) (sp site : Str)
    (hsp : ∀ c ∈ sp, isWord c = true ∨ c = '*' ∨ c = '-')
    (hsp0 : ∀ c, sp.head? = some c → isDigit c = false)
    (hsite : ∀ c ∈ site, isLetter c = true ∨ c = '*') (hne : site ≠ []) :
    chemFormula (Spec.numText coef ++ (sp ++ '_' :: (Spec.numText num ++ site))) =
      .ok { text := Spec.numText coef ++ (sp ++ '_' :: (Spec.numText num ++ site)),
            stoich := coef.getD 1, species := sp, nsite := num.getD 1, site := site,
            speciesSite := sp ++ '_' :: (Spec.numText num ++ site) } := by
  have := chemFormula_render (numText_digits coef) (sp := sp) (site := site)
    (fun c hc => by
      simp only [isSpChar, Bool.or_eq_true, beq_iff_eq]
      rcases hsp c hc with h | h | h <;> simp [h])
    hsp0 (numText_digits num)
    (fun c hc => by
      simp only [isSiteChar, Bool.or_eq_true, beq_iff_eq]
      exact hsite c hc) hne
  simpa [intOr1_numText] using this

/-- `2H2O-x_3s`: hypotheses are met, and the fields are the expected ones. -/
example : chemFormula (str! "2H2O-x_3s") =
    .ok { text := str! "2H2O-x_3s", stoich := 2, species := str! "H2O-x", nsite := 3,
          site := str! "s", speciesSite := str! "H2O-x_3s" } := by decide
example : (∀ c ∈ str! "H2O-x", isWord c = true ∨ c = '*' ∨ c = '-') ∧
    (∀ c ∈ str! "s", isLetter c = true ∨ c = '*') := by decide

/-- Whatever is accepted, the reported fields are contiguous pieces of the text: digits of the
coefficient, the species, an underscore, digits of the site number, the site. -/
theorem C01_formula_sound (s : Str) (f : Formula) (h : chemFormula s = .ok f) :
    ∃ pre post ds ns, s = pre ++ (ds ++ f.speciesSite) ++ post ∧
      f.speciesSite = f.species ++ '_' :: (ns ++ f.site) ∧
      (∀ c ∈ ds, isDigit c = true) ∧ (∀ c ∈ ns, isDigit c = true) ∧
      (∀ c ∈ f.species, isWord c = true ∨ c = '*' ∨ c = '-') ∧
      (∀ c ∈ f.site, isLetter c = true ∨ c = '*') ∧ f.site ≠ [] ∧
      f.stoich = (if ds = [] then 1 else intOf ds) ∧ f.nsite = (if ns = [] then 1 else intOf ns) ∧
      f.text = s := by
  unfold chemFormula at h
  split at h
  · cases h
  · rename_i d sp n site hs
    cases h
    obtain ⟨pre, suf, h1, h2⟩ := search_sound hs
    obtain ⟨post, h3, h4, h5, h6, h7, h8⟩ := formulaAt_sound h2
    refine ⟨pre, post, d, n, by simp [h1, h3], rfl, h4, h6, ?_, ?_, h8, rfl, rfl, rfl⟩
    · intro c hc
      have := h5 c hc
      simpa [isSpChar, or_assoc] using this
    · intro c hc
      have := h7 c hc
      simpa [isSiteChar] using this

example : ∃ f, chemFormula (str! "3CO_2s") = .ok f ∧ f.stoich = 3 := ⟨_, rfl, rfl⟩

/-- A text is rejected exactly if it contains no underscore followed by optional digits and a
site letter. -/
theorem C01_formula_rejected_iff (s : Str) :
    chemFormula s = .error .ChemFormulaError ↔
      ¬ ∃ pre ns c post, s = pre ++ '_' :: (ns ++ c :: post) ∧ (∀ d ∈ ns, isDigit d = true) ∧
        (isLetter c = true ∨ c = '*') := by
  constructor
  · rintro h ⟨pre, ns, c, post, rfl, hns, hc⟩
    obtain ⟨f, hf⟩ := chemFormula_isOk_of_pattern (pre := pre) (post := post) hns
      (by simpa [isSiteChar] using hc)
    rw [h] at hf; cases hf
  · intro h
    rcases chemFormula_or s with ⟨f, hf⟩ | hf
    · exfalso
      obtain ⟨pre, post, ds, ns, h1, h2, -, h4, -, h6, h7, -⟩ := C01_formula_sound s f hf
      obtain ⟨c, cs, hc⟩ : ∃ c cs, f.site = c :: cs := by
        cases hs : f.site with
        | nil => exact absurd hs h7
        | cons c cs => exact ⟨c, cs, rfl⟩
      exact h ⟨pre ++ ds ++ f.species, ns, c, cs ++ post, by simp [h1, h2, hc], h4,
        h6 c (by simp [hc])⟩
    · exact hf

example : chemFormula (str! "CO2") = .error .ChemFormulaError := by decide

/-! ## C65 nothing of an accepted text is ignored (refuted, and what holds) -/

/-- The parser does not account for the whole text: a blank after the coefficient makes the
coefficient disappear, and trailing text is dropped. -/
theorem C65_formula_text_ignored_refuted :
    (∃ f, chemFormula (str! "2 O_s") = .ok f ∧ f.stoich = 1 ∧ f.speciesSite = str! "O_s") ∧
    (∃ f, chemFormula (str! "CO_s2!") = .ok f ∧ f.speciesSite = str! "CO_s") :=
  ⟨⟨_, rfl, by decide, by decide⟩, ⟨_, rfl, by decide⟩⟩

/-- A fourth state is silently dropped. -/
theorem C65_equation_text_ignored_refuted :
    ∃ fss, eqnFormulas (str! "A_s -> B_s -> C_s -> D_s") = .ok fss ∧
      fss.map (·.map (·.speciesSite)) = [[str! "A_s"], [str! "B_s"], [str! "C_s"]] :=
  ⟨_, rfl, by decide⟩

/-- For texts written in the documented form nothing is ignored: the reported numbers and
strings re-assemble to the whole text. -/
theorem C65_formula_text_complete_partial (f : Spec.Formula) (h : f.ok = true) :
    ∃ m, chemFormula f.text = .ok m ∧
      f.text = Spec.numText f.coef ++ (m.species ++ '_' :: (Spec.numText f.num ++ m.site)) ∧
      m.stoich = f.coefficient ∧ m.nsite = f.nsite :=
  ⟨ofSpec f, chemFormula_ofSpec h, rfl, rfl, rfl⟩

/-! ## C02 element and site counts -/

/-- `2CH3OH_s` as specified. -/
def exMethanol : Spec.Formula :=
  ⟨some 2, .mol [.elem 'C' none, .elem 'H' (some 3), .elem 'O' none, .elem 'H' none], none, str! "s"⟩

/-- The element dictionary of a formula: coefficient times the sum of the counts of each
letter; letters that do not occur are absent. -/
theorem C02_formula_elements (f : Spec.Formula) (h : f.ok = true) (e : Char) :
    ∃ m, chemFormula f.text = .ok m ∧
      get? m.elements e = if f.sp.mentions e then some (f.count e) else none := by
  refine ⟨ofSpec f, chemFormula_ofSpec h, ?_⟩
  have h1 := (formula_ok_parts h).1
  rw [get?_eq_val, val_elements, keys_elements]
  simp only [ofSpec, mem_keys_speciesElements h1, val_speciesElements h1]
  rfl

example : exMethanol.ok = true ∧ exMethanol.count 'H' = 8 ∧
    (chemFormula (str! "2CH3OH_s")).toOption.map (·.elements)
      = some [('C', 2), ('H', 8), ('O', 2)] := by decide

/-- The element dictionary of a state is the sum over its formulas. -/
theorem C02_state_elements (s : Spec.State) (h : s.ok = true) (e : Char) :
    ∃ fs, stateFormulas s.text = .ok fs ∧
      get? (stateElements fs) e = if s.any (·.sp.mentions e) then some (s.count e) else none := by
  refine ⟨s.map ofSpec, stateFormulas_ofSpec h, ?_⟩
  rw [get?_eq_val, count_ofSpec h]
  obtain ⟨-, hf⟩ := state_ok_parts h
  have : (∃ f ∈ s.map ofSpec, e ∈ keys (speciesElements f.species)) ↔
      s.any (·.sp.mentions e) = true := by
    simp only [List.mem_map, List.any_eq_true]
    constructor
    · rintro ⟨_, ⟨f, hfs, rfl⟩, hm⟩
      exact ⟨f, hfs, (mem_keys_speciesElements (formula_ok_parts (hf f hfs)).1 e).mp hm⟩
    · rintro ⟨f, hfs, hm⟩
      exact ⟨_, ⟨f, hfs, rfl⟩, (mem_keys_speciesElements (formula_ok_parts (hf f hfs)).1 e).mpr hm⟩
  simp only [mem_keys_stateElements, this]

/-- The site dictionary of a state: number of sites of each surface type. -/
theorem C02_state_sites (s : Spec.State) (h : s.ok = true) (x : Str) :
    ∃ fs, stateFormulas s.text = .ok fs ∧
      get? (stateSites fs) x =
        if x ≠ ['g'] ∧ x ≠ ['l'] ∧ ∃ f ∈ s, f.site = x then some (s.siteCount x) else none := by
  refine ⟨s.map ofSpec, stateFormulas_ofSpec h, ?_⟩
  rw [get?_eq_val, siteCount_ofSpec]
  have : (∃ f ∈ s.map ofSpec, f.site = x ∧ x ≠ ['g'] ∧ x ≠ ['l']) ↔
      (x ≠ ['g'] ∧ x ≠ ['l'] ∧ ∃ f ∈ s, f.site = x) := by
    simp only [List.mem_map]
    constructor
    · rintro ⟨_, ⟨f, hfs, rfl⟩, h1, h2, h3⟩
      exact ⟨h2, h3, f, hfs, h1⟩
    · rintro ⟨h2, h3, f, hfs, h1⟩
      exact ⟨_, ⟨f, hfs, rfl⟩, h1, h2, h3⟩
  simp only [mem_keys_stateSites, this]

/-- Neither the order nor the grouping of the formulas matters. -/
theorem C02_order_independent (s t : Spec.State) (h : s.ok = true) (hp : s.Perm t) :
    ∃ fs gs, stateFormulas s.text = .ok fs ∧ stateFormulas t.text = .ok gs ∧
      eqB (stateElements fs) (stateElements gs) = true ∧
      eqB (stateSites fs) (stateSites gs) = true := by
  obtain ⟨h1, h2⟩ := state_ok_parts h
  have ht : t.ok = true := by
    simp only [Spec.State.ok, Bool.and_eq_true, bne_iff_ne, List.all_eq_true]
    refine ⟨?_, fun f hf => h2 f (hp.mem_iff.mpr hf)⟩
    rintro rfl
    exact h1 hp.eq_nil
  refine ⟨_, _, stateFormulas_ofSpec h, stateFormulas_ofSpec ht, ?_, ?_⟩
  · rw [eqB_iff (nodup_stateElements _) (nodup_stateElements _)]
    intro e
    rw [get?_eq_val, get?_eq_val, count_ofSpec h, count_ofSpec ht]
    have hc : s.count e = t.count e := (hp.map _).sum_nat
    have hm : ∀ f, f ∈ s.map ofSpec ↔ f ∈ t.map ofSpec := fun f => (hp.map _).mem_iff
    simp only [mem_keys_stateElements, hc, hm]
  · rw [eqB_iff (nodup_stateSites _) (nodup_stateSites _)]
    intro x
    rw [get?_eq_val, get?_eq_val, siteCount_ofSpec, siteCount_ofSpec]
    have hc : s.siteCount x = t.siteCount x := (hp.map _).sum_nat
    have hm : ∀ f, f ∈ s.map ofSpec ↔ f ∈ t.map ofSpec := fun f => (hp.map _).mem_iff
    simp only [mem_keys_stateSites, hc, hm]

/-- `O2_g + 2*_s + CO_s + O_2s`: a state meeting the hypotheses of the C02 theorems. -/
def exState : Spec.State :=
  [⟨none, .mol [.elem 'O' (some 2)], none, str! "g"⟩, ⟨some 2, .emptySite, none, str! "s"⟩,
   ⟨none, .mol [.elem 'C' none, .elem 'O' none], none, str! "s"⟩,
   ⟨none, .mol [.elem 'O' none], some 2, str! "s"⟩]
example : exState.ok = true ∧ exState.text = str! "O2_g + 2*_s + CO_s + O_2s" ∧
    exState.count 'O' = 4 ∧ exState.siteCount (str! "s") = 5 ∧ exState.siteCount (str! "g") = 0 := by
  decide

/-! ## C03 an equation text is split into its states in order -/

/-- The states of an equation are the written ones, in order, and their formulas parse. -/
theorem C03_equation_states (r : Spec.Rxn) (r1 r2 : Bool) (h : r.ok = true) :
    eqnStates (r.text r1 r2) = .ok (r.states.map Spec.State.text) ∧
    ∃ fss, eqnFormulas (r.text r1 r2) = .ok fss ∧
      fss.map (·.map (·.text)) = r.states.map (·.map Spec.Formula.text) ∧
      fss.map (·.map (·.stoich)) = r.states.map (·.map Spec.Formula.coefficient) ∧
      fss.map (·.map (·.speciesSite)) = r.states.map (·.map Spec.Formula.speciesSite) := by
  refine ⟨eqnStates_ofSpec h, _, eqnFormulas_ofSpec h, ?_, ?_, ?_⟩ <;>
    simp [Function.comp_def, ofSpec]

/-- The same for arbitrary trimmed state texts that contain no arrow characters. -/
theorem C03_states_of_text (a b c : Str) (r1 r2 : Bool)
    (ha : ∀ x ∈ a, x ≠ '<' ∧ x ≠ '>') (hb : ∀ x ∈ b, x ≠ '<' ∧ x ≠ '>')
    (hc : ∀ x ∈ c, x ≠ '<' ∧ x ≠ '>') (hta : Trim a) (htb : Trim b) (htc : Trim c) :
    eqnStates (a ++ (Spec.arrowText r1 ++ b)) = .ok [a, b] ∧
    eqnStates (a ++ (Spec.arrowText r1 ++ (b ++ (Spec.arrowText r2 ++ c)))) = .ok [a, b, c] :=
  ⟨eqnStates_two (fun x hx => by simp [notAngle, ha x hx]) (fun x hx => by simp [notAngle, hb x hx])
      hta htb,
   eqnStates_three (fun x hx => by simp [notAngle, ha x hx]) (fun x hx => by simp [notAngle, hb x hx])
      (fun x hx => by simp [notAngle, hc x hx]) hta htb htc⟩

/-- A text is rejected exactly if it contains no `->`. -/
theorem C03_no_arrow_rejected_iff (s : Str) :
    eqnStates s = .error .AttributeError ↔ ¬ ∃ pre post, s = pre ++ '-' :: '>' :: post := by
  unfold eqnStates
  constructor
  · rintro h ⟨pre, post, rfl⟩
    have : (search statesAt (pre ++ '-' :: '>' :: post)).isSome := by
      apply search_complete
      unfold statesAt
      apply star_complete (w := []) (r := '-' :: '>' :: post) (by simp)
      simp only [arrow, lit, show ¬ ('<' = '-') by decide, if_false, if_true, alt]
      split
      · simp
      · exact star_complete (w := []) (r := post) (by simp) (by simp)
    split at h
    · rename_i hn; simp [hn] at this
    · cases h
  · intro h
    split
    · rfl
    · rename_i g1 g2 g3 hs
      obtain ⟨pre, suf, rfl, hm⟩ := search_sound hs
      obtain ⟨-, -, -, pre', post, rfl⟩ := statesAt_sound hm
      exact absurd ⟨pre ++ pre', post, by simp⟩ h

/-- `CO_g + *_s -> CO_s` and `O2_g + 2*_s <-> O-O_2s -> 2O_s`. -/
def exAds : Spec.Rxn :=
  .two [⟨none, .mol [.elem 'C' none, .elem 'O' none], none, str! "g"⟩, ⟨none, .emptySite, none, str! "s"⟩]
    [⟨none, .mol [.elem 'C' none, .elem 'O' none], none, str! "s"⟩]
def exDiss : Spec.Rxn :=
  .three [⟨none, .mol [.elem 'O' (some 2)], none, str! "g"⟩, ⟨some 2, .emptySite, none, str! "s"⟩]
    [⟨none, .mol [.elem 'O' none, .dash, .elem 'O' none], some 2, str! "s"⟩]
    [⟨some 2, .mol [.elem 'O' none], none, str! "s"⟩]
example : exAds.ok = true ∧ exAds.text false false = str! "CO_g + *_s -> CO_s" ∧
    exDiss.ok = true ∧ exDiss.text true false = str! "O2_g + 2*_s <-> O-O_2s -> 2O_s" := by decide

/-! ## C04 the conservation check accepts exactly the balanced reactions -/

theorem forM_first_error {α : Type} {f : α → Py PUnit} {e : PyErr} {l : List α}
    (hf : ∀ x ∈ l, f x = .ok () ∨ f x = .error e) (h : ¬ ∀ x ∈ l, f x = .ok ()) :
    l.forM f = .error e := by
  induction l with
  | nil => simp at h
  | cons x l ih =>
    have hcons : (x :: l).forM f = (f x >>= fun _ => l.forM f) := rfl
    rw [hcons]
    rcases hf x (by simp) with hx | hx
    · rw [hx]
      exact ih (fun y hy => hf y (by simp [hy])) (fun h' => h (fun y hy => by
        rcases List.mem_cons.mp hy with rfl | hy
        · exact hx
        · exact h' y hy))
    · rw [hx]; rfl

/-- On a reaction written with positive numbers `check_conservation` returns `True` if the
reaction is balanced and raises `ValueError` if it is not. -/
theorem C04_check_iff_balanced (r : Spec.Rxn) (r1 r2 : Bool) (h : r.ok = true) (hp : r.pos) :
    (r.balanced ∧ checkConservation (r.text r1 r2) = .ok true) ∨
    (¬ r.balanced ∧ checkConservation (r.text r1 r2) = .error .ValueError) := by
  have hok := rxn_ok_states h
  obtain ⟨s0, rest, hst⟩ : ∃ s0 rest, r.states = s0 :: rest := by
    cases r <;> exact ⟨_, _, rfl⟩
  have hs0 : s0 ∈ r.states := by simp [hst]
  have hrest : ∀ t ∈ rest, t ∈ r.states := fun t ht => by simp [hst, ht]
  have hpair : ∀ t ∈ rest, (balanced2 s0 t ∧ stateConserve s0.text t.text = .ok true) ∨
      (¬ balanced2 s0 t ∧ stateConserve s0.text t.text = .error .ValueError) := fun t ht =>
    conserve_ofSpec (hok _ hs0) (hok _ (hrest t ht)) (hp _ hs0) (hp _ (hrest t ht))
  have hbal : r.balanced ↔ ∀ t ∈ rest, balanced2 s0 t := by
    constructor
    · intro hb t ht; exact hb s0 hs0 t (hrest t ht)
    · intro hb
      have h0 : ∀ t ∈ r.states, balanced2 s0 t := by
        intro t ht
        rw [hst] at ht
        rcases List.mem_cons.mp ht with rfl | ht
        · exact ⟨fun _ => rfl, fun _ => rfl⟩
        · exact hb t ht
      intro s hs t ht
      exact ⟨fun e => ((h0 s hs).1 e).symm.trans ((h0 t ht).1 e),
        fun x => ((h0 s hs).2 x).symm.trans ((h0 t ht).2 x)⟩
  have hstates : eqnStates (r.text r1 r2) = .ok (s0.text :: rest.map Spec.State.text) := by
    rw [eqnStates_ofSpec h, hst]; rfl
  by_cases hb : ∀ t ∈ rest, balanced2 s0 t
  · left
    refine ⟨hbal.mpr hb, ?_⟩
    rw [checkConservation_iff]
    refine ⟨_, _, hstates, ?_⟩
    intro t ht
    obtain ⟨u, hu, rfl⟩ := List.mem_map.mp ht
    rcases hpair u hu with ⟨-, h⟩ | ⟨h, -⟩
    · exact h
    · exact absurd (hb u hu) h
  · right
    refine ⟨fun h' => hb (hbal.mp h'), ?_⟩
    unfold checkConservation
    rw [hstates]
    have : (rest.map Spec.State.text).forM
        (fun t => do let _ ← stateConserve s0.text t : Str → Py PUnit) = .error .ValueError := by
      apply forM_first_error
      · intro x hx
        obtain ⟨u, hu, rfl⟩ := List.mem_map.mp hx
        rcases hpair u hu with ⟨-, h⟩ | ⟨-, h⟩
        · left; rw [h]; rfl
        · right; rw [h]; rfl
      · intro hall
        apply hb
        intro t ht
        have := hall t.text (List.mem_map.mpr ⟨t, ht, rfl⟩)
        rcases hpair t ht with ⟨hbt, -⟩ | ⟨-, h⟩
        · exact hbt
        · rw [h] at this; cases this
    show ((rest.map Spec.State.text).forM _ >>= fun _ => pure true : Py Bool) = _
    rw [this]; rfl

theorem exAds_pos : exAds.pos := by
  intro s hs
  simp [exAds, Spec.Rxn.states] at hs
  rcases hs with rfl | rfl <;> intro f hf <;> simp at hf
  · rcases hf with rfl | rfl <;> simp [Spec.Formula.pos, Spec.Formula.coefficient, Spec.Formula.nsite]
  · subst hf
    simp [Spec.Formula.pos, Spec.Formula.coefficient, Spec.Formula.nsite]
/-- Both cases of C04 occur. -/
example : exAds.ok = true ∧ exAds.pos ∧ checkConservation (exAds.text false false) = .ok true ∧
    checkConservation (str! "CO_g + *_s -> CO_s + O_s") = .error .ValueError :=
  ⟨by decide, exAds_pos, by decide, by decide⟩

/-- Acceptance of state pairs is an equivalence relation on parseable texts, so the choice of
the first state as reference does not matter. -/
theorem C04_acceptance_equivalence :
    (∀ a, (∃ fs, stateFormulas a = .ok fs) → stateConserve a a = .ok true) ∧
    (∀ a b, stateConserve a b = .ok true → stateConserve b a = .ok true) ∧
    (∀ a b c, stateConserve a b = .ok true → stateConserve b c = .ok true →
      stateConserve a c = .ok true) := by
  refine ⟨?_, fun a b h => Accepts.symm h, fun a b c h h' => Accepts.trans h h'⟩
  rintro a ⟨fs, hfs⟩
  exact accepts_iff.mpr ⟨fs, fs, hfs, hfs, fun _ => rfl, fun _ => rfl⟩

/-- Two formulas written with positive numbers pass the check of one against the other exactly if they hold the same
number of every element and as many of the same site; at this level the gas and liquid phases count as sites. -/
theorem C04_formula_check (f g : Spec.Formula) (hf : f.ok = true) (hg : g.ok = true) (pf : f.pos) (pg : g.pos) :
    ∃ a b, chemFormula f.text = .ok a ∧ chemFormula g.text = .ok b ∧
      (((∀ e, f.count e = g.count e) ∧ f.site = g.site ∧ f.coefficient * f.nsite = g.coefficient * g.nsite) ∧ a.conserve b = .ok true ∨
      ¬ ((∀ e, f.count e = g.count e) ∧ f.site = g.site ∧ f.coefficient * f.nsite = g.coefficient * g.nsite) ∧ a.conserve b = .error .ValueError) := by
  refine ⟨_, _, chemFormula_ofSpec hf, chemFormula_ofSpec hg, ?_⟩
  have hval : ∀ {f : Spec.Formula}, f.ok = true → ∀ e, Dict.val (ofSpec f).elements e = f.count e := by
    intro f hf e
    rw [val_elements]
    simp [ofSpec, Spec.Formula.count, val_speciesElements (formula_ok_parts hf).1]
  have hpos : ∀ {f : Spec.Formula}, f.ok = true → f.pos → ∀ k ∈ Dict.keys (ofSpec f).elements, 0 < Dict.val (ofSpec f).elements k := by
    intro f hf pf e he
    rw [hval hf]
    rw [keys_elements] at he
    exact Nat.mul_pos pf.1 (species_count_pos pf ((mem_keys_speciesElements (formula_ok_parts hf).1 e).mp he))
  have e1 : Dict.eqB (ofSpec f).elements (ofSpec g).elements = true ↔ ∀ e, f.count e = g.count e := by
    rw [eqB_iff_val (nodup_elements _) (nodup_elements _) (hpos hf pf) (hpos hg pg)]
    simp only [hval hf, hval hg]
  have e2 : Dict.eqB (ofSpec f).sites (ofSpec g).sites = true ↔ f.site = g.site ∧ f.coefficient * f.nsite = g.coefficient * g.nsite := by
    have hn : ∀ h : Formula, (Dict.keys h.sites).Nodup := fun h => by simp [Formula.sites, Dict.keys]
    rw [Dict.eqB_iff (hn _) (hn _)]
    have hget : ∀ (h : Spec.Formula) k, Dict.get? (ofSpec h).sites k = if h.site = k then some (h.coefficient * h.nsite) else none := by
      intro h k
      simp [Formula.sites, ofSpec, Dict.get?, Nat.mul_comm]
    simp only [hget]
    constructor
    · intro h
      have h1 := h f.site
      by_cases hs : g.site = f.site
      · rw [if_pos rfl, if_pos hs] at h1
        exact ⟨hs.symm, Option.some.inj h1⟩
      · rw [if_pos rfl, if_neg hs] at h1; cases h1
    · rintro ⟨h1, h2⟩ k
      rw [h1, h2]
  unfold Formula.conserve
  by_cases h1 : Dict.eqB (ofSpec f).elements (ofSpec g).elements = true
  · by_cases h2 : Dict.eqB (ofSpec f).sites (ofSpec g).sites = true
    · left; exact ⟨⟨e1.mp h1, e2.mp h2⟩, by simp [h1, h2]⟩
    · right; exact ⟨fun h => h2 (e2.mpr h.2), by simp [h1, h2]⟩
  · right; exact ⟨fun h => h1 (e1.mpr h.1), by simp [h1]⟩

example : (chemFormula (str! "2OH_s") >>= fun a => chemFormula (str! "H2O2_2s") >>= fun b => a.conserve b) = .ok true ∧
    (chemFormula (str! "2OH_s") >>= fun a => chemFormula (str! "H2O_2s") >>= fun b => a.conserve b) = .error .ValueError := by decide

/-- Without positivity the equivalence fails: a zero coefficient adds an explicit zero entry
and a balanced reaction is rejected. -/
theorem C04_zero_coefficient_refuted :
    ∃ r : Spec.Rxn, r.ok = true ∧ r.balanced ∧
      checkConservation (r.text false false) = .error .ValueError := by
  refine ⟨.two [⟨none, .mol [.elem 'O' none], none, str! "s"⟩, ⟨some 0, .mol [.elem 'C' none], none, str! "s"⟩]
    [⟨none, .mol [.elem 'O' none], none, str! "s"⟩], by decide, ?_, by decide⟩
  intro s hs t ht
  simp only [Spec.Rxn.states, List.mem_cons, List.not_mem_nil, or_false] at hs ht
  have key : ∀ e x, Spec.State.count e [⟨none, .mol [.elem 'O' none], none, str! "s"⟩, ⟨some 0, .mol [.elem 'C' none], none, str! "s"⟩]
      = Spec.State.count e [⟨none, .mol [.elem 'O' none], none, str! "s"⟩] ∧
      Spec.State.siteCount x [⟨none, .mol [.elem 'O' none], none, str! "s"⟩, ⟨some 0, .mol [.elem 'C' none], none, str! "s"⟩]
      = Spec.State.siteCount x [⟨none, .mol [.elem 'O' none], none, str! "s"⟩] := by
    intro e x
    constructor <;> simp [Spec.State.count, Spec.State.siteCount, Spec.Formula.count,
      Spec.Formula.siteCount, Spec.Formula.coefficient, Spec.Formula.nsite]
  rcases hs with rfl | rfl <;> rcases ht with rfl | rfl
  · exact ⟨fun _ => rfl, fun _ => rfl⟩
  · exact ⟨fun e => (key e []).1, fun x => (key 'O' x).2⟩
  · exact ⟨fun e => (key e []).1.symm, fun x => (key 'O' x).2.symm⟩
  · exact ⟨fun _ => rfl, fun _ => rfl⟩

/-- An equation with nothing on one side is accepted: a lone state is compared with nothing. -/
theorem C04_missing_side_refuted :
    checkConservation (str! "->CO_s") = .ok true ∧ checkConservation (str! "CO_g + *_s->") = .ok true := by
  decide

/-! ## C06 reverting -/

/-- `revert` succeeds exactly on equations with two or three states; its states are the
reversed ones, and reverting again gives the original states. -/
theorem C06_revert_states (s : Str) (l : List Str) (h : eqnStates s = .ok l) :
    ((l.length = 2 ∨ l.length = 3) ∧ ∃ t, eqnRevert s = .ok t ∧ eqnStates t = .ok l.reverse ∧
      ∃ u, eqnRevert t = .ok u ∧ eqnStates u = .ok l) ∨
    (¬ (l.length = 2 ∨ l.length = 3) ∧ eqnRevert s = .error .UnboundLocalError) := by
  by_cases hl : l.length = 2 ∨ l.length = 3
  · left
    refine ⟨hl, ?_⟩
    obtain ⟨t, ht⟩ := eqnRevert_of_states h hl
    obtain ⟨l', h1, h2, h3⟩ := eqnRevert_states ht
    rw [h] at h1; cases h1
    obtain ⟨u, hu⟩ := eqnRevert_of_states h3 (by simpa using hl)
    obtain ⟨l'', h4, -, h5⟩ := eqnRevert_states hu
    rw [h3] at h4; cases h4
    exact ⟨t, ht, h3, u, hu, by simpa using h5⟩
  · right
    refine ⟨hl, ?_⟩
    unfold eqnRevert
    rw [h]
    match l, hl with
    | [], _ => rfl
    | [_], _ => rfl
    | [_, _], hl => simp at hl
    | [_, _, _], hl => simp at hl
    | _ :: _ :: _ :: _ :: _, _ => rfl

/-- The reverse is accepted by the conservation check exactly when the original is. -/
theorem C06_revert_conservation (s t : Str) (h : eqnRevert s = .ok t) :
    checkConservation t = .ok true ↔ checkConservation s = .ok true :=
  check_revert h

/-- Gases adsorbed by the reverse are the gases desorbed by the original, and vice versa. -/
theorem C06_revert_gases (s t : Str) (h : eqnRevert s = .ok t) :
    adsorptionGases t = desorptionGases s ∧ desorptionGases t = adsorptionGases s := by
  have hf := eqnFormulas_revert h
  unfold adsorptionGases desorptionGases
  rw [hf]
  cases eqnFormulas s with
  | error e => exact ⟨rfl, rfl⟩
  | ok fss =>
    simp only [Except.map, bind, Except.bind]
    rw [List.head?_reverse, List.getLast?_reverse]
    exact ⟨rfl, rfl⟩

example : eqnRevert (str! "O2_g + 2*_s <-> O-O_2s -> 2O_s") = .ok (str! "2O_s <-> O-O_2s -> O2_g + 2*_s") ∧
    eqnStates (str! "CO_g + *_s -> CO_s") = .ok [str! "CO_g + *_s", str! "CO_s"] := by decide

/-! ## C07 the species dictionary of a state -/

/-- Total coefficient of a species in a list of formulas. -/
def specTotal (x : Str) (s : Spec.State) : Nat :=
  (s.map fun f => if f.speciesSite = x then f.coefficient else 0).sum

/-- The dictionary does not report totals when a species is written twice. -/
theorem C07_repeated_species_refuted :
    ∃ s : Spec.State, s.ok = true ∧ ∃ fs x, stateFormulas s.text = .ok fs ∧
      specTotal x s = 2 ∧ get? (speciesSiteDict fs) x = some 1 :=
  ⟨[⟨none, .mol [.elem 'C' none, .elem 'O' none], none, str! "s"⟩,
    ⟨none, .mol [.elem 'C' none, .elem 'O' none], none, str! "s"⟩], by decide, _, str! "CO_s",
    stateFormulas_ofSpec (by decide), by decide, by decide⟩

theorem get?_speciesSiteDict (fs : List Formula) (d : Dict Str Nat)
    (hn : (fs.map (·.speciesSite)).Nodup) (x : Str) :
    get? (fs.foldl (fun d f => Dict.set d f.speciesSite f.stoich) d) x =
      match fs.find? (fun f => f.speciesSite = x) with
      | some f => some f.stoich
      | none => get? d x := by
  induction fs generalizing d with
  | nil => rfl
  | cons f fs ih =>
    simp only [List.map_cons, List.nodup_cons] at hn
    simp only [List.foldl_cons, ih _ hn.2, List.find?_cons, get?_set]
    by_cases h : f.speciesSite = x
    · have : fs.find? (fun f => f.speciesSite = x) = none := by
        rw [List.find?_eq_none]
        intro g hg
        simp only [decide_eq_true_eq]
        intro hgx
        exact hn.1 (List.mem_map.mpr ⟨g, hg, hgx.trans h.symm⟩)
      simp [h, this]
    · simp [h]

/-- If no species is written twice in the state, the dictionary maps every species to its
coefficient (and has no other keys). Missing for the full claim: states that repeat a species. -/
theorem C07_species_dict_partial (s : Spec.State) (h : s.ok = true)
    (hn : (s.map Spec.Formula.speciesSite).Nodup) (x : Str) :
    ∃ fs, stateFormulas s.text = .ok fs ∧
      get? (speciesSiteDict fs) x =
        if ∃ f ∈ s, f.speciesSite = x then some (specTotal x s) else none := by
  refine ⟨s.map ofSpec, stateFormulas_ofSpec h, ?_⟩
  unfold speciesSiteDict
  rw [get?_speciesSiteDict _ _ (by simpa [Function.comp_def, ofSpec] using hn), List.find?_map]
  clear h
  induction s with
  | nil => simp [get?]
  | cons f s ih =>
    simp only [List.map_cons, List.nodup_cons] at hn
    have ih := ih hn.2
    simp only [List.find?_cons, Function.comp_apply, ofSpec]
    by_cases hx : f.speciesSite = x
    · have h0 : specTotal x s = 0 := by
        unfold specTotal
        rw [List.sum_eq_zero_iff_forall_eq_nat]
        intro n hnn
        obtain ⟨g, hg, rfl⟩ := List.mem_map.mp hnn
        have : ¬ g.speciesSite = x := fun hgx => hn.1 (List.mem_map.mpr ⟨g, hg, hgx.trans hx.symm⟩)
        simp [this]
      have h1 : specTotal x (f :: s) = f.coefficient + specTotal x s := by
        simp [specTotal, hx]
      simp [hx, h1, h0]
      rfl
    · have h1 : specTotal x (f :: s) = specTotal x s := by simp [specTotal, hx]
      simp only [hx, decide_false]
      simp only [List.mem_cons, exists_eq_or_imp, hx, false_or, h1]
      exact ih

example : exState.ok = true ∧ (exState.map Spec.Formula.speciesSite).Nodup := by decide

/-! ### The theorems at these cases -/

example := C01_formula_roundtrip (some 2) (some 3) (str! "H2O-x") (str! "s") (by decide) (by simp; decide) (by decide) (by decide)

example (f : Formula) (h : chemFormula (str! "3CO_2s") = .ok f) := C01_formula_sound _ f h

example := C65_formula_text_complete_partial exMethanol (by decide)

example := C02_formula_elements exMethanol (by decide) 'H'

example := C02_state_elements exState (by decide) 'O'

example := C02_state_sites exState (by decide) (str! "s")

example := C02_order_independent exState exState.reverse (by decide) (List.reverse_perm _).symm

example := C03_equation_states exDiss true false (by decide)

example := C04_check_iff_balanced exAds false false (by decide) exAds_pos

example := C06_revert_states (str! "CO_g + *_s -> CO_s") [str! "CO_g + *_s", str! "CO_s"] (by decide)

example := C06_revert_conservation (str! "O2_g + 2*_s <-> O-O_2s -> 2O_s") (str! "2O_s <-> O-O_2s -> O2_g + 2*_s") (by decide)

example := C06_revert_gases (str! "O2_g + 2*_s <-> O-O_2s -> 2O_s") (str! "2O_s <-> O-O_2s -> O2_g + 2*_s") (by decide)

example := C07_species_dict_partial exState (by decide) (by decide) (str! "CO_s")

end Verif
