import Verif.Model.Network
import Verif.Lemmas.Sort
import Verif.Lemmas.Mass
import Mathlib.Tactic.Linarith
namespace Verif
open Re Dict

/-! ### `mapM` -/

theorem mapM_ok_inv {α β : Type} {f : α → Py β} {l : List α} {k : List β} (h : l.mapM f = .ok k) :
    k.length = l.length ∧ ∀ i (h1 : i < l.length) (h2 : i < k.length), f l[i] = .ok k[i] := by
  induction l generalizing k with
  | nil => cases h; simp
  | cons x l ih =>
    rw [List.mapM_cons] at h
    cases hx : f x with
    | error e => rw [hx] at h; cases h
    | ok y =>
      rw [hx] at h
      cases hl : l.mapM f with
      | error e => rw [hl] at h; cases h
      | ok ys =>
        rw [hl] at h; cases h
        obtain ⟨i1, i2⟩ := ih hl
        refine ⟨by simp [i1], ?_⟩
        intro i h1 h2
        cases i with
        | zero => exact hx
        | succ i => exact i2 i (by simpa using h1) (by simpa using h2)

theorem mapM_ok_mem {α β : Type} {f : α → Py β} {l : List α} {k : List β} (h : l.mapM f = .ok k) :
    (∀ y ∈ k, ∃ x ∈ l, f x = .ok y) ∧ (∀ x ∈ l, ∃ y ∈ k, f x = .ok y) := by
  obtain ⟨h1, h2⟩ := mapM_ok_inv h
  constructor
  · intro y hy
    obtain ⟨i, hi, rfl⟩ := List.mem_iff_getElem.mp hy
    exact ⟨l[i], List.getElem_mem _, h2 i (by omega) hi⟩
  · intro x hx
    obtain ⟨i, hi, rfl⟩ := List.mem_iff_getElem.mp hx
    exact ⟨k[i], List.getElem_mem _, h2 i hi (by omega)⟩

theorem mapM_ok_exists {α β : Type} {f : α → Py β} {l : List α} (h : ∀ x ∈ l, ∃ y, f x = .ok y) :
    ∃ k, l.mapM f = .ok k := by
  induction l with
  | nil => exact ⟨[], rfl⟩
  | cons x l ih =>
    obtain ⟨y, hy⟩ := h x (by simp)
    obtain ⟨ys, hys⟩ := ih (fun z hz => h z (by simp [hz]))
    refine ⟨y :: ys, ?_⟩
    rw [List.mapM_cons, hy, hys]; rfl

theorem mapM_ok_perm {α β : Type} {f : α → Py β} {l l' : List α} {k : List β} (hp : l.Perm l')
    (h : l.mapM f = .ok k) : ∃ k', l'.mapM f = .ok k' ∧ k.Perm k' := by
  induction hp generalizing k with
  | nil => exact ⟨k, h, .refl _⟩
  | cons x hp ih =>
    rw [List.mapM_cons] at h
    cases hx : f x with
    | error e => rw [hx] at h; cases h
    | ok y =>
      rw [hx] at h
      rename_i l1 l2
      cases hl : l1.mapM f with
      | error e => rw [hl] at h; cases h
      | ok ys =>
        rw [hl] at h; cases h
        obtain ⟨k', h1, h2⟩ := ih hl
        exact ⟨y :: k', by rw [List.mapM_cons, hx, h1]; rfl, h2.cons y⟩
  | swap x y l =>
    rw [List.mapM_cons, List.mapM_cons] at h
    cases hy : f y with
    | error e => rw [hy] at h; cases h
    | ok v =>
      cases hx : f x with
      | error e => rw [hy, hx] at h; cases h
      | ok u =>
        rw [hy, hx] at h
        cases hl : l.mapM f with
        | error e => rw [hl] at h; cases h
        | ok ys =>
          rw [hl] at h; cases h
          exact ⟨u :: v :: ys, by rw [List.mapM_cons, List.mapM_cons, hx, hy, hl]; rfl, .swap ..⟩
  | trans _ _ ih1 ih2 =>
    obtain ⟨k1, h1, p1⟩ := ih1 h
    obtain ⟨k2, h2, p2⟩ := ih2 h1
    exact ⟨k2, h2, p1.trans p2⟩

/-! ### facts about every constructed formula -/

/-- The shape of a constructed formula. -/
structure Good (f : Formula) (ns : Str) : Prop where
  name : f.speciesSite = f.species ++ '_' :: (ns ++ f.site)
  num : ∀ c ∈ ns, isDigit c = true
  nsite : f.nsite = intOr1 ns
  site : ∀ c ∈ f.site, isSiteChar c = true
  siteNe : f.site ≠ []
  sp : ∀ c ∈ f.species, isSpChar c = true
  sp0 : ∀ c, f.species.head? = some c → isDigit c = false

theorem star_first {β : Type} {p : Char → Bool} {s : Str} {k : Str → Str → Option β} {x : β}
    (h : star p s k = some x) :
    ∃ w r, s = w ++ r ∧ (∀ c ∈ w, p c = true) ∧ k w r = some x ∧
      ∀ c r', r = c :: r' → p c = true → k (w ++ [c]) r' = none := by
  induction s generalizing k with
  | nil => exact ⟨[], [], rfl, by simp, h, by simp⟩
  | cons c cs ih =>
    simp only [Re.star] at h
    split at h
    · rename_i hc
      split at h
      · rename_i y hy
        cases h
        obtain ⟨w, r, hs, hw, hk, hn⟩ := ih hy
        refine ⟨c :: w, r, by simp [hs], by simpa [hc] using hw, hk, ?_⟩
        intro d r' hr hd
        exact hn d r' hr hd
      · rename_i hn
        refine ⟨[], c :: cs, rfl, by simp, h, ?_⟩
        intro d r' hr hd
        cases hr
        cases hk : k ([] ++ [c]) cs with
        | none => rfl
        | some y =>
          have : (star p ([] ++ cs) (fun w r => k (c :: w) r)).isSome :=
            star_complete (w := []) (r := cs) (by simp) (by show (k [c] cs).isSome = true; rw [show k [c] cs = some y from hk]; rfl)
          simp [hn] at this
    · rename_i hc
      refine ⟨[], c :: cs, rfl, by simp, h, ?_⟩
      intro d r' hr hd
      cases hr
      exact absurd hd hc

theorem formulaAt_sp0 {s ds sp ns site : Str} (h : formulaAt s = some (ds, sp, ns, site)) :
    ∀ c, sp.head? = some c → isDigit c = false := by
  intro c hc
  unfold formulaAt at h
  obtain ⟨w1, r1, h1, hw1, h, hn⟩ := star_first h
  obtain ⟨w2, r2, h2, hw2, h⟩ := star_sound h
  have hsome : ((lit ['_'] r2 fun s3 => star isDigit s3 fun n s4 =>
      plus isSiteChar s4 fun site _ => some (w1, w2, n, site))).isSome := by rw [h]; rfl
  obtain ⟨r3, h3, h⟩ := lit_sound h
  obtain ⟨w4, r4, h4, hw4, h⟩ := star_sound h
  obtain ⟨w5, r5, h5, hne, hw5, h⟩ := plus_sound h
  cases h
  cases sp with
  | nil => simp at hc
  | cons d sp' =>
    simp only [List.head?_cons, Option.some.injEq] at hc
    subst hc
    cases hd : isDigit d with
    | false => rfl
    | true =>
      exfalso
      have hnone := hn d (sp' ++ r2) (by simp [h2]) hd
      have : ((star isSpChar (sp' ++ r2) fun sp s2 =>
        lit ['_'] s2 fun s3 =>
          star isDigit s3 fun n s4 =>
            plus isSiteChar s4 fun site _ => some (ds ++ [d], sp, n, site))).isSome := by
        apply star_complete (fun x hx => hw2 x (by simp [hx]))
        rw [h3, lit_append, h4]
        apply star_complete hw4
        rw [h5]
        cases site with
        | nil => exact absurd rfl hne
        | cons y ys =>
          simp only [List.cons_append, plus, hw5 y (by simp), if_true]
          exact star_complete (fun x hx => hw5 x (by simp [hx])) (by simp)
      rw [hnone] at this
      cases this

theorem good_of_chemFormula {t : Str} {f : Formula} (h : chemFormula t = .ok f) : ∃ ns, Good f ns := by
  unfold chemFormula at h
  split at h
  · cases h
  · rename_i d sp n site hs
    cases h
    obtain ⟨pre, suf, -, h2⟩ := search_sound hs
    obtain ⟨post, -, -, h5, h6, h7, h8⟩ := formulaAt_sound h2
    exact ⟨n, rfl, h6, rfl, h7, h8, h5, formulaAt_sp0 h2⟩

theorem last_sep {a b c d : Str} {x : Char} (hb : x ∉ b) (hd : x ∉ d)
    (h : a ++ x :: b = c ++ x :: d) : a = c ∧ b = d := by
  induction a generalizing c with
  | nil =>
    cases c with
    | nil => simpa using h
    | cons y c =>
      simp only [List.nil_append, List.cons_append, List.cons.injEq] at h
      exact absurd (by rw [h.2]; simp) hb
  | cons y a ih =>
    cases c with
    | nil =>
      simp only [List.nil_append, List.cons_append, List.cons.injEq] at h
      exact absurd (by rw [← h.2]; simp) hd
    | cons z c =>
      simp only [List.cons_append, List.cons.injEq] at h
      obtain ⟨rfl, h⟩ := h
      obtain ⟨rfl, e⟩ := ih h
      exact ⟨rfl, e⟩

theorem site_digits {ns ms s t : Str} (hn : ∀ c ∈ ns, isDigit c = true) (hm : ∀ c ∈ ms, isDigit c = true)
    (hs : ∀ c ∈ s, isSiteChar c = true) (ht : ∀ c ∈ t, isSiteChar c = true)
    (h : ns ++ s = ms ++ t) : ns = ms ∧ s = t := by
  have stop : ∀ {u : Str}, (∀ c ∈ u, isSiteChar c = true) → ∀ c, u.head? = some c → isDigit c = false := by
    intro u hu c hc
    have := hu c (List.mem_of_head? hc)
    cases hd : isDigit c with
    | false => rfl
    | true => rw [not_isSiteChar_of_digit hd] at this; cases this
  have h1 := takeWhile_digits hn (stop hs)
  have h2 := takeWhile_digits hm (stop ht)
  rw [h, h2] at h1
  subst h1
  exact ⟨rfl, List.append_cancel_left h⟩

theorem underscore_not {ns s : Str} (hn : ∀ c ∈ ns, isDigit c = true) (hs : ∀ c ∈ s, isSiteChar c = true) :
    '_' ∉ ns ++ s := by
  intro h
  rcases List.mem_append.mp h with h | h
  · exact absurd (hn _ h) (by decide)
  · exact absurd (hs _ h) (by decide)

theorem name_parts {sp sp' ns ms s t : Str} (hn : ∀ c ∈ ns, isDigit c = true)
    (hm : ∀ c ∈ ms, isDigit c = true) (hs : ∀ c ∈ s, isSiteChar c = true)
    (ht : ∀ c ∈ t, isSiteChar c = true)
    (h : sp ++ '_' :: (ns ++ s) = sp' ++ '_' :: (ms ++ t)) : sp = sp' ∧ ns = ms ∧ s = t := by
  obtain ⟨h1, h2⟩ := last_sep (underscore_not hn hs) (underscore_not hm ht) h
  exact ⟨h1, site_digits hn hm hs ht h2⟩

/-- A name determines species, site number and site. -/
theorem Good.unique {f g : Formula} {ns ms : Str} (hf : Good f ns) (hg : Good g ms)
    (h : f.speciesSite = g.speciesSite) :
    f.species = g.species ∧ f.site = g.site ∧ f.nsite = g.nsite := by
  rw [hf.name, hg.name] at h
  obtain ⟨h1, h2, h3⟩ := name_parts hf.num hg.num hf.site hg.site h
  exact ⟨h1, h3, by rw [hf.nsite, hg.nsite, h2]⟩

theorem Good.reparse {f : Formula} {ns : Str} (hf : Good f ns) :
    chemFormula f.speciesSite = .ok { f with text := f.speciesSite, stoich := 1 } := by
  have := chemFormula_render (ds := []) (by simp) hf.sp hf.sp0 hf.num hf.site hf.siteNe
  rw [hf.name]
  simp only [List.nil_append] at this
  rw [this]
  congr 1
  have h1 := hf.nsite
  have h2 := hf.name
  cases f
  simp only [Formula.mk.injEq, true_and] at h1 h2 ⊢
  exact ⟨rfl, h1.symm, by simp⟩

theorem classify_eq (f : Formula) : classify f =
    if f.site = ['g'] then some .gas else if f.site = ['l'] then some .liquid
    else if '-' ∈ f.species then some .ts else if '*' ∉ f.species then some .ads else none := by
  simp [classify, Formula.sites, keys, eq_comm]

theorem Good.classify {f g : Formula} {ns ms : Str} (hf : Good f ns) (hg : Good g ms)
    (h : f.speciesSite = g.speciesSite) : classify f = classify g := by
  obtain ⟨h1, h2, -⟩ := hf.unique hg h
  rw [classify_eq, classify_eq, h1, h2]

/-! ### parsed networks -/

theorem stateFormulas_good {s : Str} {fs : List Formula} (h : stateFormulas s = .ok fs) :
    ∀ f ∈ fs, ∃ ns, Good f ns := by
  intro f hf
  obtain ⟨t, -, ht⟩ := (mapM_ok_mem h).1 f hf
  exact good_of_chemFormula ht

theorem eqnFormulas_good {s : Str} {fss : List (List Formula)} (h : eqnFormulas s = .ok fss) :
    ∀ fs ∈ fss, ∀ f ∈ fs, ∃ ns, Good f ns := by
  unfold eqnFormulas at h
  cases hs : eqnStates s with
  | error e => rw [hs] at h; cases h
  | ok l =>
    rw [hs] at h
    intro fs hfs f hf
    obtain ⟨t, -, ht⟩ := (mapM_ok_mem (show l.mapM stateFormulas = .ok fss from h)).1 fs hfs
    exact stateFormulas_good ht f hf

theorem parseRxn_ok {s : Str} {fss : List (List Formula)} :
    parseRxn s = .ok fss ↔ checkConservation s = .ok true ∧ eqnFormulas s = .ok fss := by
  unfold parseRxn
  cases hc : checkConservation s with
  | error e => simp [bind, Except.bind]
  | ok b =>
    have : b = true := by
      unfold checkConservation at hc
      cases hs : eqnStates s with
      | error e => rw [hs] at hc; cases hc
      | ok l =>
        rw [hs] at hc
        cases l with
        | nil => cases hc
        | cons a l =>
          simp only [bind, Except.bind] at hc
          split at hc
          · cases hc
          · cases hc; rfl
    subst this
    simp [bind, Except.bind]

/-- An accepted reaction has a first and a last state, and all states agree in all elements and
sites. -/
theorem parseRxn_states {s : Str} {fss : List (List Formula)} (h : parseRxn s = .ok fss) :
    ∃ first rest, fss = first :: rest ∧
      (∀ gs ∈ rest, (∀ e, val (stateElements first) e = val (stateElements gs) e) ∧
        (∀ x, val (stateSites first) x = val (stateSites gs) x)) := by
  obtain ⟨hc, he⟩ := parseRxn_ok.mp h
  obtain ⟨a, l, hs, hacc⟩ := checkConservation_iff.mp hc
  unfold eqnFormulas at he
  rw [hs] at he
  have he : (a :: l).mapM stateFormulas = .ok fss := he
  obtain ⟨h1, h2⟩ := mapM_ok_inv he
  cases fss with
  | nil => simp at h1
  | cons first rest =>
    refine ⟨first, rest, rfl, ?_⟩
    intro gs hgs
    obtain ⟨i, hi, rfl⟩ := List.mem_iff_getElem.mp hgs
    have ha : stateFormulas a = .ok first := h2 0 (by simp) (by simp)
    have hl : l.length = rest.length := by simpa using h1.symm
    have hi' : i < l.length := by omega
    have hg : stateFormulas l[i] = .ok rest[i] := h2 (i + 1) (by simp; omega) (by simp; omega)
    obtain ⟨fs', gs', e1, e2, e3, e4⟩ := accepts_iff.mp (hacc l[i] (List.getElem_mem _))
    rw [ha] at e1; cases e1
    rw [hg] at e2; cases e2
    exact ⟨fun e => by simp [val, e3 e], fun x => by simp [val, e4 x]⟩

theorem parseRxn_ends {s : Str} {fss : List (List Formula)} (h : parseRxn s = .ok fss) :
    ∃ is fs, fss.head? = some is ∧ fss.getLast? = some fs ∧
      (∀ e, val (stateElements is) e = val (stateElements fs) e) ∧
      (∀ x, val (stateSites is) x = val (stateSites fs) x) := by
  obtain ⟨first, rest, rfl, hb⟩ := parseRxn_states h
  refine ⟨first, (first :: rest).getLast (by simp), rfl, List.getLast?_eq_some_getLast _, ?_⟩
  cases rest with
  | nil => simp
  | cons x xs =>
    rw [List.getLast_cons (by simp)]
    exact hb _ (List.getLast_mem _)

theorem parseNetwork_ok {rxns : List Str} {n : Network} (h : parseNetwork rxns = .ok n) :
    rxns.mapM parseRxn = .ok n.rxns ∧ n.ads = namesOf .ads n.rxns.flatten.flatten ∧
    n.gas = namesOf .gas n.rxns.flatten.flatten ∧ n.liq = namesOf .liquid n.rxns.flatten.flatten ∧
    n.sites = siteNamesOf n.rxns.flatten.flatten ∧ n.ts = namesOf .ts n.rxns.flatten.flatten := by
  unfold parseNetwork at h
  cases hl : rxns.mapM parseRxn with
  | error e => rw [hl] at h; cases h
  | ok l => rw [hl] at h; cases h; exact ⟨rfl, rfl, rfl, rfl, rfl, rfl⟩

theorem mem_namesOf {k : Kind} {fs : List Formula} {x : Str} :
    x ∈ namesOf k fs ↔ ∃ f ∈ fs, classify f = some k ∧ f.speciesSite = x := by
  unfold namesOf
  rw [mem_sortedSet]
  simp [and_assoc]

theorem mem_siteNamesOf {fs : List Formula} {x : Str} :
    x ∈ siteNamesOf fs ↔ ∃ f ∈ fs, f.site ≠ ['g'] ∧ f.site ≠ ['l'] ∧ x = '*' :: '_' :: f.site := by
  unfold siteNamesOf
  rw [mem_sortedSet]
  simp only [List.mem_flatMap, List.mem_map, List.mem_filter, Formula.sites, keys, List.map_cons,
    List.map_nil, List.mem_singleton, decide_eq_true_eq, not_or]
  constructor
  · rintro ⟨f, hf, s, ⟨rfl, h1, h2⟩, rfl⟩
    exact ⟨f, hf, h1, h2, rfl⟩
  · rintro ⟨f, hf, h1, h2, rfl⟩
    exact ⟨f, hf, _, ⟨rfl, h1, h2⟩, rfl⟩

theorem network_good {rxns : List Str} {n : Network} (h : parseNetwork rxns = .ok n) :
    ∀ f ∈ n.rxns.flatten.flatten, ∃ ns, Good f ns := by
  obtain ⟨h1, -⟩ := parseNetwork_ok h
  intro f hf
  simp only [List.mem_flatten] at hf
  obtain ⟨fs, ⟨fss, hfss, hfs⟩, hf⟩ := hf
  obtain ⟨s, -, hs⟩ := (mapM_ok_mem h1).1 fss hfss
  exact eqnFormulas_good (parseRxn_ok.mp hs).2 fs hfs f hf

/-! ### rows -/

/-- Total coefficient of a name among the formulas of a state. -/
def coefIn (x : Str) (fs : List Formula) : Nat :=
  ((fs.filter fun f => f.speciesSite = x).map (·.stoich)).sum

theorem length_addState (names : List Str) (sgn : Int) (fs : List Formula) (row : List Int) :
    (addState names sgn fs row).length = row.length := by
  induction fs generalizing row with
  | nil => rfl
  | cons f fs ih =>
    show (addState names sgn fs _).length = _
    rw [ih]
    dsimp only
    split
    · simp [addAt]
    · rfl

theorem getElem_addState {names : List Str} (hnd : names.Nodup) (sgn : Int) (fs : List Formula)
    {row : List Int} (hlen : row.length = names.length) {j : Nat} (hj : j < names.length) :
    (addState names sgn fs row)[j]'(by rw [length_addState]; omega) =
      row[j]'(by omega) + sgn * (coefIn names[j] fs : Int) := by
  induction fs generalizing row with
  | nil => simp [addState, coefIn]
  | cons f fs ih =>
    have hstep : addState names sgn (f :: fs) row = addState names sgn fs
        (if f.speciesSite ∈ names then addAt row (names.idxOf f.speciesSite) (sgn * (f.stoich : Int))
          else row) := rfl
    simp only [hstep]
    by_cases hm : f.speciesSite ∈ names
    · simp only [hm, if_true]
      rw [ih (by simp [addAt, hlen])]
      simp only [addAt, List.getElem_modify, coefIn, List.filter_cons]
      by_cases hx : f.speciesSite = names[j]
      · have : names.idxOf f.speciesSite = j := by rw [hx]; exact hnd.idxOf_getElem j hj
        rw [this]
        simp only [hx, if_true, decide_true, List.map_cons, List.sum_cons]
        push_cast
        ring
      · have : names.idxOf f.speciesSite ≠ j := by
          intro e
          apply hx
          have := List.getElem_idxOf (List.idxOf_lt_length_of_mem hm)
          simp only [e] at this
          exact this.symm
        simp [this, hx]
    · simp only [hm, if_false]
      rw [ih hlen]
      have : ¬ f.speciesSite = names[j] := fun e => hm (by rw [e]; exact List.getElem_mem _)
      simp [coefIn, this]

theorem stoichRow_ok {names : List Str} {states : List (List Formula)} {is fs : List Formula}
    (h1 : states.head? = some is) (h2 : states.getLast? = some fs) :
    stoichRow names states =
      .ok (addState names (-1) fs (addState names 1 is (List.replicate names.length 0))) := by
  simp [stoichRow, h1, h2]

theorem wsum_addAt (w : Str → Int) {names : List Str} {row : List Int} (hlen : row.length = names.length)
    {j : Nat} (hj : j < names.length) (v : Int) :
    (List.zipWith (fun a x => a * w x) (addAt row j v) names).sum =
      (List.zipWith (fun a x => a * w x) row names).sum + v * w names[j] := by
  induction names generalizing row j with
  | nil => simp at hj
  | cons y names ih =>
    cases row with
    | nil => simp at hlen
    | cons a row =>
      cases j with
      | zero => simp [addAt]; ring
      | succ j =>
        have := ih (row := row) (j := j) (by simpa using hlen) (by simpa using hj)
        simp only [addAt] at this
        simp only [addAt, List.modify_succ_cons, List.zipWith_cons_cons, List.sum_cons, this,
          List.getElem_cons_succ]
        ring

/-- Weighted sum over the listed formulas of a state. -/
def stateSum (names : List Str) (w : Str → Int) (fs : List Formula) : Int :=
  (fs.map fun f => if f.speciesSite ∈ names then (f.stoich : Int) * w f.speciesSite else 0).sum

theorem wsum_addState (w : Str → Int) {names : List Str} (sgn : Int) (fs : List Formula)
    {row : List Int} (hlen : row.length = names.length) :
    (List.zipWith (fun a x => a * w x) (addState names sgn fs row) names).sum =
      (List.zipWith (fun a x => a * w x) row names).sum + sgn * stateSum names w fs := by
  induction fs generalizing row with
  | nil => simp [addState, stateSum]
  | cons f fs ih =>
    have hstep : addState names sgn (f :: fs) row = addState names sgn fs
        (if f.speciesSite ∈ names then addAt row (names.idxOf f.speciesSite) (sgn * (f.stoich : Int))
          else row) := rfl
    rw [hstep]
    by_cases hm : f.speciesSite ∈ names
    · simp only [hm, if_true]
      have hj := List.idxOf_lt_length_of_mem hm
      rw [ih (by simp [addAt, hlen]), wsum_addAt w hlen hj, List.getElem_idxOf hj]
      simp only [stateSum, List.map_cons, List.sum_cons, hm, if_true]
      ring
    · simp only [hm, if_false]
      rw [ih hlen]
      simp [stateSum, hm]

theorem wsum_zero (w : Str → Int) (names : List Str) :
    (List.zipWith (fun a x => a * w x) (List.replicate names.length 0) names).sum = 0 := by
  induction names with
  | nil => rfl
  | cons y names ih => simp [List.replicate_succ, ih]

theorem wsum_stoichRow (w : Str → Int) {names : List Str} {states : List (List Formula)}
    {is fs : List Formula} {row : List Int}
    (h1 : states.head? = some is) (h2 : states.getLast? = some fs)
    (hr : stoichRow names states = .ok row) :
    (List.zipWith (fun a x => a * w x) row names).sum = stateSum names w is - stateSum names w fs := by
  rw [stoichRow_ok h1 h2] at hr
  cases hr
  rw [wsum_addState w, wsum_addState w _ _ (by simp), wsum_zero]
  · ring
  · rw [length_addState]; simp

end Verif
