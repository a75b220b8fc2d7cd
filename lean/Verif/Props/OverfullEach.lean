import Verif.Props.OverfullNear
/-
C133: networks in which no reaction needs more than one empty site and none frees more than one. This allows adsorbates that move from one kind of site
to another.
-/
namespace Verif
open Dict
set_option linter.unusedSectionVars false
variable {K : Type} [Field K] [LinearOrder K] [IsStrictOrderedRing K]

/-- The first and the last state of the reaction each have at most one empty site, with the coefficient one. -/
def OneEmptyEachSide (states : List (List Formula)) : Prop :=
  ∀ fs, (states.head? = some fs ∨ states.getLast? = some fs) → (fs.filter isEmptySite).length ≤ 1 ∧ ∀ f ∈ fs, isEmptySite f = true → f.stoich = 1

theorem empty_is_site {o : MFOwner K} {total P C : Str → K} (h : Ready o total P C) {f : Formula} (hf : OccursIn o.rxns f)
    (he : isEmptySite f = true) (hname : specKind f.species f.site = .empty → f.speciesSite = str! "*_" ++ f.site) : f.speciesSite ∈ o.net.sites := by
  have hk : specKind f.species f.site = .empty := of_decide_eq_true he
  refine (C08_site_names _ _ h.parse _).mpr ⟨f, hf, ?_, ?_, hname hk⟩
  · intro e
    simp [specKind, e] at hk
  · intro e
    simp [specKind, e] at hk

/-- A state on the over-full sites `O`: it has no empty site, or one, which is over-full or not. -/
theorem state_cases {o : MFOwner K} {total P C v : Str → K} (h : Ready o total P C) {O : List Str} (hnd : O.Nodup) (hsub : ∀ s ∈ O, s ∈ o.net.sites)
    {fs : List Formula} (hocc : ∀ f ∈ fs, OccursIn o.rxns f)
    (hname : ∀ f ∈ fs, specKind f.species f.site = .empty → f.speciesSite = str! "*_" ++ f.site)
    (hlen : (fs.filter isEmptySite).length ≤ 1) (hco : ∀ f ∈ fs, isEmptySite f = true → f.stoich = 1) :
    (fs.filter isEmptySite = [] ∧ (O.map fun s => (totalCoef s fs : K)).sum = 0 ∧ (∀ s ∈ O, totalCoef s fs = 0) ∧
      stateActivity P C (coverage o.net total v) fs = restActivity P C (coverage o.net total v) fs) ∨
    ∃ x ∈ o.net.sites, fs.filter isEmptySite ≠ [] ∧ (O.map fun s => (totalCoef s fs : K)).sum = (if x ∈ O then 1 else 0) ∧
      (∀ s ∈ O, 0 < totalCoef s fs → x = s) ∧
      stateActivity P C (coverage o.net total v) fs = coverage o.net total v x * restActivity P C (coverage o.net total v) fs := by
  have hcoef : ∀ s ∈ O, totalCoef s fs = totalCoef s (fs.filter isEmptySite) := fun s hs => totalCoef_empty h (hsub s hs) hocc
  have hsum : (O.map fun s => (totalCoef s fs : K)).sum = (O.map fun s => (totalCoef s (fs.filter isEmptySite) : K)).sum := by
    congr 1
    exact List.map_congr_left fun s hs => by rw [hcoef s hs]
  rcases he : fs.filter isEmptySite with _ | ⟨f, l⟩
  · left
    have nil2 : ∀ s, totalCoef s [] = 0 := fun _ => rfl
    refine ⟨rfl, ?_, fun s hs => by rw [hcoef s hs, he, nil2], ?_⟩
    · rw [hsum, he]
      simp [nil2]
    · rw [stateActivity_split, he]
      exact one_mul _
  · right
    have : l = [] := by
      rw [he, List.length_cons] at hlen
      exact List.eq_nil_of_length_eq_zero (by omega)
    subst this
    obtain ⟨hf, hfe⟩ := List.mem_filter.mp (he ▸ List.mem_singleton_self f : f ∈ fs.filter isEmptySite)
    have hst := hco f hf hfe
    have coef : ∀ s, totalCoef s [f] = if f.speciesSite = s then 1 else 0 := by
      intro s
      unfold totalCoef
      by_cases e : f.speciesSite = s <;> simp [e, hst]
    refine ⟨f.speciesSite, empty_is_site h (hocc f hf) hfe (hname f hf), by simp, ?_, ?_, ?_⟩
    · rw [hsum, he]
      clear hsum hcoef hsub
      induction O with
      | nil => simp
      | cons s O ih =>
        obtain ⟨hn1, hn2⟩ := List.nodup_cons.mp hnd
        rw [List.map_cons, List.sum_cons, ih hn2, coef]
        by_cases e : f.speciesSite = s
        · subst e
          simp [hn1]
        · simp [e]
    · intro s hs h0
      rw [hcoef s hs, he, coef] at h0
      by_contra e
      simp [e] at h0
    · rw [stateActivity_split, he]
      have hk : specKind f.species f.site = .empty := of_decide_eq_true hfe
      congr 1
      unfold stateActivity specAct
      rw [List.map_singleton, List.prod_singleton, hst, pow_one, hk]

/-- One reaction and all the over-full sites together: it frees some on balance, and if it needs one of them and frees no site, it frees at least what it
would take if the site were as empty as it is over-full. -/
theorem reaction_frees_all {o : MFOwner K} {total P C v : Str → K} {kf kr : List K} (h : Ready o total P C) (hph : NonnegState o P C v kf kr)
    {states : List (List Formula)} {is fs : List Formula} (hc : RateClean states) (h1 : states.head? = some is) (h2 : states.getLast? = some fs)
    (o1 : ∀ f ∈ is, OccursIn o.rxns f) (o2 : ∀ f ∈ fs, OccursIn o.rxns f) (hone : OneEmptyEachSide states)
    {O : List Str} (hnd : O.Nodup) (hsub : ∀ s ∈ O, s ∈ o.net.sites)
    (hover : ∀ s ∈ O, coverage o.net total v s ≤ 0) (hfit : ∀ s ∈ o.net.sites, s ∉ O → 0 ≤ coverage o.net total v s) {a b : K} (ha : 0 ≤ a) (hb : 0 ≤ b) :
    0 ≤ (O.map fun s => (produced s states : K) *
      (a * stateActivity P C (coverage o.net total v) is - b * stateActivity P C (coverage o.net total v) fs)).sum ∧
    ∀ s ∈ O, 0 < totalCoef s is → fs.filter isEmptySite = [] →
      a * restActivity P C (coverage o.net total v) is * (- coverage o.net total v s) ≤
      (O.map fun s => (produced s states : K) *
        (a * stateActivity P C (coverage o.net total v) is - b * stateActivity P C (coverage o.net total v) fs)).sum := by
  have r1 := rest_nonneg h hph o1 fun f hf => (hc.1.1 is (.inl h1) f hf).1
  have r2 := rest_nonneg h hph o2 fun f hf => (hc.1.1 fs (.inr h2) f hf).1
  have hsum : ∀ R : K, (O.map fun s => (produced s states : K) * R).sum =
      ((O.map fun s => (totalCoef s fs : K)).sum - (O.map fun s => (totalCoef s is : K)).sum) * R := by
    intro R
    unfold produced
    rw [h1, h2]
    simp only [stateCoef]
    clear hnd hsub hover hfit
    induction O with
    | nil => simp
    | cons s O ih =>
      simp only [List.map_cons, List.sum_cons, ih]
      push_cast
      ring
  rw [hsum]
  have A := mul_nonneg ha r1
  have B := mul_nonneg hb r2
  rcases state_cases (v := v) h hnd hsub o1 (hc.1.2 is (.inl h1)) (hone is (.inl h1)).1 (hone is (.inl h1)).2 with ⟨i1, i2, i3, i4⟩ | ⟨x, hx, i1, i2, i3, i4⟩
  · rcases state_cases (v := v) h hnd hsub o2 (hc.1.2 fs (.inr h2)) (hone fs (.inr h2)).1 (hone fs (.inr h2)).2 with ⟨j1, j2, j3, j4⟩ | ⟨y, hy, j1, j2, j3, j4⟩
    · rw [i2, j2]
      refine ⟨by simp, fun s hs h0 => ?_⟩
      rw [i3 s hs] at h0
      exact absurd h0 (lt_irrefl _)
    · rw [i2, j2, i4, j4]
      refine ⟨?_, fun s hs h0 => ?_⟩
      · by_cases hyO : y ∈ O
        · rw [if_pos hyO]
          have := mul_nonneg B (neg_nonneg.mpr (hover y hyO))
          nlinarith
        · rw [if_neg hyO]
          simp
      · rw [i3 s hs] at h0
        exact absurd h0 (lt_irrefl _)
  · rcases state_cases (v := v) h hnd hsub o2 (hc.1.2 fs (.inr h2)) (hone fs (.inr h2)).1 (hone fs (.inr h2)).2 with ⟨j1, j2, j3, j4⟩ | ⟨y, hy, j1, j2, j3, j4⟩
    · rw [i2, j2, i4, j4]
      refine ⟨?_, fun s hs h0 _ => ?_⟩
      · by_cases hxO : x ∈ O
        · rw [if_pos hxO]
          have := mul_nonneg A (neg_nonneg.mpr (hover x hxO))
          nlinarith
        · rw [if_neg hxO]
          simp
      · obtain rfl := i3 s hs h0
        rw [if_pos hs]
        nlinarith
    · rw [i2, j2, i4, j4]
      refine ⟨?_, fun s hs h0 h1 => absurd h1 j1⟩
      by_cases hxO : x ∈ O
      · rw [if_pos hxO]
        have k1 := mul_nonneg A (neg_nonneg.mpr (hover x hxO))
        by_cases hyO : y ∈ O
        · rw [if_pos hyO]
          simp
        · rw [if_neg hyO]
          have k2 := mul_nonneg B (hfit y hy hyO)
          nlinarith
      · rw [if_neg hxO]
        have k1 := mul_nonneg A (hfit x hx hxO)
        by_cases hyO : y ∈ O
        · rw [if_pos hyO]
          have k2 := mul_nonneg B (neg_nonneg.mpr (hover y hyO))
          nlinarith
        · rw [if_neg hyO]
          simp

theorem sum_swap (O : List Str) (l : List (List (List Formula))) (net : List K) :
    (O.map fun s => (List.zipWith (fun states r => (produced s states : K) * r) l net).sum).sum =
      (List.zipWith (fun states r => (O.map fun s => (produced s states : K) * r).sum) l net).sum := by
  induction l generalizing net with
  | nil => simp
  | cons st l ih =>
    cases net with
    | nil => simp
    | cons r net =>
      simp only [List.zipWith_cons_cons, List.sum_cons]
      rw [← ih]
      clear ih
      induction O with
      | nil => simp
      | cons s O ih => 
        simp only [List.map_cons, List.sum_cons, ih]
        ring

/-- Number of adsorbates counted over all the sites. -/
def siteOccupants (n : Network) : Nat := (n.sites.map fun s => (n.ads.filter fun a => OnSite a s).length).sum

/-- **C133** Part: networks in which no reaction needs more than one empty site and none frees more than one. If coverages that are not negative have a small
residual, no site is over-full by much: for every reaction that needs an empty site `s` and frees none, the excess times what drives the reaction is at
most the residual times the number of adsorbates. -/
theorem C133_each_excess_partial (o : MFOwner K) (total P C : Str → K) (h : Ready o total P C) (hc : ∀ states ∈ o.net.rxns, RateClean states)
    (v : Str → K) (kf kr : List K) (hnd : o.rxns.Nodup) (hlf : kf.length = o.rxns.length) (hlr : kr.length = o.rxns.length)
    (hph : NonnegState o P C v kf kr) (hside : ∀ a ∈ o.net.ads, ∀ states ∈ o.net.rxns, OneSided a states)
    (hn : ∀ a ∈ o.net.ads, ∀ f, chemFormula a = .ok f → f.nsite = 1) (hone : ∀ states ∈ o.net.rxns, OneEmptyEachSide states)
    (r : K) (hres : getResidual o (kf, kr) (o.net.ads.map v) = .ok r) (s : Str) (hs : s ∈ o.net.sites)
    (i : Nat) (states : List (List Formula)) (is fs : List Formula) (k : K) (hi : o.net.rxns[i]? = some states) (his : states.head? = some is)
    (hfs : states.getLast? = some fs) (hpos : 0 < totalCoef s is) (hnone : fs.filter isEmptySite = []) (hk : kf[i]? = some k) :
    k * restActivity P C (coverage o.net total v) is * (((o.net.ads.filter fun a => OnSite a s).map v).sum - total s) ≤
      (siteOccupants o.net : K) * r := by
  obtain ⟨κf, hκf⟩ := kOk_nodup hnd hlf
  obtain ⟨κr, hκr⟩ := kOk_nodup hnd hlr
  have hcov : coverage o.net total v s = total s - ((o.net.ads.filter fun a => OnSite a s).map v).sum := by
    unfold coverage
    rw [if_neg (sites_disjoint h.parse s hs)]
  have hl := length_rxns h.parse
  have hil : i < o.rxns.length := by
    have := (List.getElem?_eq_some_iff.mp hi).1
    omega
  -- the derivatives
  obtain ⟨net, e1, e2, e3⟩ := C26_derivatives_partial o total P C h hc v kf kr κf κr hκf hκr hside
  obtain ⟨net', derivs', e1', e4, e5⟩ := C27_sites_partial o total P C h hc v kf kr κf κr hκf hκr hside hn
  rw [e1] at e1'; cases e1'
  rw [e3] at e4; cases e4
  have hD : ∀ d ∈ o.net.ads.map (production o.net net), |d| ≤ r := by
    intro d hd
    obtain ⟨r', hr', -, hall, -⟩ := C30_residual o (kf, kr) _ _ e3 (List.ne_nil_of_mem hd)
    rw [hres] at hr'
    rw [Except.ok.inj hr']
    exact hall d hd
  have hr0 : ∀ s, 0 ≤ ((o.net.ads.filter fun a => OnSite a s).length : K) * r := by
    intro s
    cases hl0 : (o.net.ads.filter fun a => OnSite a s) with
    | nil => simp
    | cons a l =>
      have ha : a ∈ o.net.ads := (List.mem_filter.mp (hl0 ▸ List.mem_cons_self .. : a ∈ o.net.ads.filter fun a => OnSite a s)).1
      exact mul_nonneg (Nat.cast_nonneg _) ((abs_nonneg _).trans (hD _ (List.mem_map_of_mem ha)))
  have hocc : (siteOccupants o.net : K) * r = (o.net.sites.map fun s => ((o.net.ads.filter fun a => OnSite a s).length : K) * r).sum := by
    unfold siteOccupants
    induction o.net.sites with
    | nil => simp
    | cons s l ih =>
      rw [List.map_cons, List.sum_cons, List.map_cons, List.sum_cons, ← ih]
      push_cast
      ring
  have hrest := fun (o1 : ∀ f ∈ is, OccursIn o.rxns f) => rest_nonneg h hph o1 fun f hf => ((clean_at hc hi).1.1 is (.inl his) f hf).1
  obtain ⟨st, is', fs', g1, g2, -, g4, g5, o1, o2⟩ := states_ok h.parse hil
  rw [hi] at g2; cases g2
  rw [his] at g4; cases g4
  have hk0 : 0 ≤ k := hph.kf _ (List.mem_of_getElem? hk)
  have hrest := hrest o1
  rcases lt_or_ge (coverage o.net total v s) 0 with hneg | hneg
  swap
  · have : ((o.net.ads.filter fun a => OnSite a s).map v).sum - total s ≤ 0 := by rw [hcov] at hneg; linarith
    refine (mul_nonpos_of_nonneg_of_nonpos (mul_nonneg hk0 hrest) this).trans ?_
    rw [hocc]
    refine List.sum_nonneg fun x hx => ?_
    obtain ⟨s', -, rfl⟩ := List.mem_map.mp hx
    exact hr0 s'
  -- the over-full sites
  set O := o.net.sites.filter fun s => decide (coverage o.net total v s < 0) with hO
  have hOnd : O.Nodup := (lists_sorted _ _ h.parse).2.2.filter _
  have hOsub : ∀ s ∈ O, s ∈ o.net.sites := fun s hs => (List.mem_filter.mp hs).1
  have hOver : ∀ s ∈ O, coverage o.net total v s ≤ 0 := fun s hs => (of_decide_eq_true (List.mem_filter.mp hs).2).le
  have hOfit : ∀ s ∈ o.net.sites, s ∉ O → 0 ≤ coverage o.net total v s := by
    intro s hs hno
    by_contra hlt
    exact hno (List.mem_filter.mpr ⟨hs, decide_eq_true (not_le.mp hlt)⟩)
  have hsO : s ∈ O := List.mem_filter.mpr ⟨hs, decide_eq_true hneg⟩
  -- the reactions
  obtain ⟨rfs, rrs, q1, q2, q3, q4⟩ := getRates_ok h hc v kf kr κf κr hκf hκr
  have hnet : net = List.zipWith (· - ·) rfs rrs := by
    unfold getNetRates at e1
    rw [q1] at e1
    exact (Except.ok.inj e1).symm
  have hterm : ∀ j (hj : j < o.rxns.length), ∃ st is fs R, o.net.rxns[j]? = some st ∧ st.head? = some is ∧ st.getLast? = some fs ∧
      net[j]? = some R ∧ 0 ≤ (O.map fun s => (produced s st : K) * R).sum ∧
      ∀ s ∈ O, 0 < totalCoef s is → fs.filter isEmptySite = [] → κf o.rxns[j] * restActivity P C (coverage o.net total v) is * (- coverage o.net total v s) ≤
        (O.map fun s => (produced s st : K) * R).sum := by
    intro j hj
    obtain ⟨st, is, fs, g1, g2, -, g4, g5, o1, o2⟩ := states_ok h.parse hj
    obtain ⟨ra, rb⟩ := q4 j hj st is fs g1 g4 g5
    have := reaction_frees_all h hph (clean_at hc g2) g4 g5 o1 o2 (hone st (List.mem_of_getElem? g2)) hOnd hOsub hOver hOfit
      (hph.kf _ (List.mem_of_getElem? (hκf.get j hj))) (hph.kr _ (List.mem_of_getElem? (hκr.get j hj)))
    refine ⟨st, is, fs, _, g2, g4, g5, ?_, this⟩
    rw [hnet, List.getElem?_zipWith, ra, rb]
  have hprod : k * restActivity P C (coverage o.net total v) is * (- coverage o.net total v s) ≤ (O.map (production o.net net)).sum := by
    obtain ⟨st', is'', fs', R, w1, w2, w3, w4, -, w6⟩ := hterm i hil
    rw [hi] at w1; cases w1
    rw [his] at w2; cases w2
    rw [hfs] at w3; cases w3
    have hkk : κf o.rxns[i] = k := by
      have := hκf.get i hil
      rw [hk] at this
      exact (Option.some.inj this).symm
    rw [← hkk]
    refine (w6 s hsO hpos hnone).trans ?_
    have : (O.map (production o.net net)).sum = (List.zipWith (fun states r => (O.map fun s => (produced s states : K) * r).sum) o.net.rxns net).sum :=
      sum_swap O o.net.rxns net
    rw [this]
    have hmem : (O.map fun s => (produced s states : K) * R).sum ∈
        List.zipWith (fun states r => (O.map fun s => (produced s states : K) * r).sum) o.net.rxns net := by
      refine List.mem_of_getElem? (i := i) ?_
      rw [List.getElem?_zipWith, hi, w4]
    refine List.single_le_sum (fun x hx => ?_) _ hmem
    obtain ⟨j, hj, rfl⟩ := List.mem_iff_getElem.mp hx
    rw [List.length_zipWith] at hj
    obtain ⟨st, is, fs, R', z1, -, -, z4, z5, -⟩ := hterm j (by omega)
    rw [List.getElem?_eq_getElem (by omega)] at z1 z4
    rw [List.getElem_zipWith, Option.some.inj z1, Option.some.inj z4]
    exact z5
  -- the sums of the derivatives
  have hsum : ∀ s, - (((o.net.ads.filter fun a => OnSite a s).length : K) * r) ≤
      (((o.net.ads.zip (o.net.ads.map (production o.net net))).filter fun x => OnSite x.1 s).map (·.2)).sum := by
    intro s
    have : ∀ l : List Str, (∀ a ∈ l, |production o.net net a| ≤ r) → - (((l.filter fun a => OnSite a s).length : K) * r) ≤
        (((l.zip (l.map (production o.net net))).filter fun x => OnSite x.1 s).map (·.2)).sum := by
      intro l
      induction l with
      | nil => simp
      | cons a l ih =>
        intro hl
        have ih := ih fun b hb => hl b (by simp [hb])
        have ha := (abs_le.mp (hl a (by simp))).1
        rw [List.map_cons, List.zip_cons_cons]
        by_cases e : OnSite a s
        · rw [List.filter_cons_of_pos (by simpa using e), List.filter_cons_of_pos (by simpa using e), List.map_cons, List.sum_cons, List.length_cons]
          push_cast
          nlinarith
        · rw [List.filter_cons_of_neg (by simpa using e), List.filter_cons_of_neg (by simpa using e)]
          exact ih
    exact this _ fun a ha => hD _ (List.mem_map_of_mem ha)
  have hall : (O.map (production o.net net)).sum ≤ (siteOccupants o.net : K) * r := by
    rw [hocc, hO]
    have : ∀ l : List Str, (∀ s ∈ l, s ∈ o.net.sites) → ((l.filter fun s => decide (coverage o.net total v s < 0)).map (production o.net net)).sum ≤
        (l.map fun s => ((o.net.ads.filter fun a => OnSite a s).length : K) * r).sum := by
      intro l
      induction l with
      | nil => simp
      | cons x l ih =>
        intro hl
        have ih := ih fun y hy => hl y (by simp [hy])
        rw [List.map_cons, List.sum_cons]
        cases hx : decide (coverage o.net total v x < 0) with
        | true =>
          rw [List.filter_cons_of_pos (by simpa using hx), List.map_cons, List.sum_cons]
          have := e5 x (hl x (by simp))
          have := hsum x
          linarith
        | false =>
          rw [List.filter_cons_of_neg (by simpa using hx)]
          have := hr0 x
          linarith
    exact this _ fun _ hs => hs
  have hneg : ((o.net.ads.filter fun a => OnSite a s).map v).sum - total s = - coverage o.net total v s := by rw [hcov]; ring
  rw [hneg]
  exact hprod.trans hall

/-- Some reaction fills the empty site `s` and frees none, at a rate that depends on no other coverage: all else it needs comes from the gas or the liquid. -/
def AdsorbsOnly (o : MFOwner ℝ) (P C : Str → ℝ) (kf : List ℝ) (s : Str) : Prop :=
  ∃ (i : Nat) (states : List (List Formula)) (is fs : List Formula) (k : ℝ), o.net.rxns[i]? = some states ∧ states.head? = some is ∧
    states.getLast? = some fs ∧ 0 < totalCoef s is ∧ fs.filter isEmptySite = [] ∧
    kf[i]? = some k ∧ 0 < k ∧ ∀ f ∈ is, isEmptySite f = false →
      (specKind f.species f.site = .gas ∧ 0 < P f.speciesSite) ∨ (specKind f.species f.site = .liquid ∧ 0 < C f.speciesSite)

/-- **C133** Part: no reaction needs more than one empty site, none frees more than one, and every site adsorbs something. For every distance there is a tolerance such
that coverages with a residual within it, none of them negative, are within that distance of a physical steady state. That they fit the surface is not assumed. -/
theorem C133_each_close_partial (o : MFOwner ℝ) (total P C : Str → ℝ) (h : Ready o total P C) (hc : ∀ states ∈ o.net.rxns, RateClean states)
    (hpos : ∀ s ∈ o.net.sites, 0 ≤ total s) (kf kr : List ℝ) (hnd : o.rxns.Nodup) (hlf : kf.length = o.rxns.length) (hlr : kr.length = o.rxns.length)
    (hkf : ∀ k ∈ kf, 0 ≤ k) (hkr : ∀ k ∈ kr, 0 ≤ k) (hP : ∀ g ∈ o.net.gas, 0 ≤ P g) (hC : ∀ g ∈ o.net.liq, 0 ≤ C g)
    (hside : ∀ a ∈ o.net.ads, ∀ states ∈ o.net.rxns, OneSided a states)
    (hn : ∀ a ∈ o.net.ads, ∀ f, chemFormula a = .ok f → f.nsite = 1) (hone : ∀ states ∈ o.net.rxns, OneEmptyEachSide states)
    (hads : ∀ s ∈ o.net.sites, AdsorbsOnly o P C kf s) (ε : ℝ) (hε : 0 < ε) :
    ∃ δ, 0 < δ ∧ ∀ (v : Str → ℝ) (r : ℝ), (∀ a ∈ o.net.ads, 0 ≤ v a) → getResidual o (kf, kr) (o.net.ads.map v) = .ok r → r ≤ δ →
      ∃ w, PhysicalSteady o total (kf, kr) w ∧ ∀ a ∈ o.net.ads, |v a - w a| ≤ ε := by
  obtain ⟨δ₁, hδ₁, hclose⟩ := close_bounded o total P C h hc kf kr hnd hlf hlr ε hε (fun s => total s + 1)
  -- a residual so small that no site is over-full by more than one
  have hsite : ∀ s ∈ o.net.sites, ∃ d, 0 < d ∧ ∀ (v : Str → ℝ) (r : ℝ), (∀ a ∈ o.net.ads, 0 ≤ v a) → getResidual o (kf, kr) (o.net.ads.map v) = .ok r →
      r ≤ d → ((o.net.ads.filter fun a => OnSite a s).map v).sum ≤ total s + 1 := by
    intro s hs
    obtain ⟨i, states, is, fs, k, h1, h2, h2', h3, h3', h4, h5, h6⟩ := hads s hs
    obtain ⟨w, hw, hall⟩ := adsorbs_rate h6
    refine ⟨k * w / (siteOccupants o.net + 1), by positivity, fun v r hv hr hle => ?_⟩
    have := C133_each_excess_partial o total P C h hc v kf kr hnd hlf hlr ⟨hkf, hkr, hP, hC, hv⟩ hside hn hone r hr s hs i states is fs k h1 h2 h2' h3 h3' h4
    rw [hall] at this
    have h7 : (siteOccupants o.net : ℝ) * r ≤ k * w := by
      have hl : (0 : ℝ) ≤ siteOccupants o.net := Nat.cast_nonneg _
      refine (mul_le_mul_of_nonneg_left hle hl).trans ?_
      rw [← mul_div_assoc, div_le_iff₀ (by positivity)]
      nlinarith [mul_pos h5 hw]
    have h8 := this.trans h7
    by_contra hlt
    have : 1 < ((o.net.ads.filter fun a => OnSite a s).map v).sum - total s := by linarith [not_le.mp hlt]
    nlinarith [mul_pos h5 hw]
  obtain ⟨δ₂, hδ₂, hfit⟩ : ∃ d, 0 < d ∧ ∀ s ∈ o.net.sites, ∀ (v : Str → ℝ) (r : ℝ), (∀ a ∈ o.net.ads, 0 ≤ v a) →
      getResidual o (kf, kr) (o.net.ads.map v) = .ok r → r ≤ d → ((o.net.ads.filter fun a => OnSite a s).map v).sum ≤ total s + 1 := by
    generalize o.net.sites = l at hsite
    induction l with
    | nil => exact ⟨1, one_pos, by simp⟩
    | cons s l ih =>
      obtain ⟨d, hd, h1⟩ := ih fun x hx => hsite x (by simp [hx])
      obtain ⟨d', hd', h2⟩ := hsite s (by simp)
      refine ⟨min d d', lt_min hd hd', fun x hx v r hv hr hle => ?_⟩
      rcases List.mem_cons.mp hx with rfl | hx
      · exact h2 v r hv hr (hle.trans (min_le_right _ _))
      · exact h1 x hx v r hv hr (hle.trans (min_le_left _ _))
  refine ⟨min δ₁ δ₂, lt_min hδ₁ hδ₂, fun v r hv hr hle => ?_⟩
  obtain ⟨w, ⟨⟨hw0, -⟩, hws⟩, hb⟩ := hclose v r ⟨hv, fun s hs => hfit s hs v r hv hr (hle.trans (min_le_right _ _))⟩ hr (hle.trans (min_le_left _ _))
  refine ⟨w, ⟨⟨hw0, fun s hs => ?_⟩, hws⟩, hb⟩
  -- the steady state itself fits the surface
  by_cases hne : o.net.ads = []
  · rw [hne]
    simpa using hpos s hs
  · obtain ⟨r', e1, -, -, -, e2, -⟩ := C30_residual o (kf, kr) _ _ hws (by simpa using hne)
    have : r' = 0 := e2.mpr fun d hd => List.eq_of_mem_replicate hd
    subst this
    obtain ⟨i, states, is, fs, k, h1, h2, h2', h3, h3', h4, h5, h6⟩ := hads s hs
    obtain ⟨x, hx, hall⟩ := adsorbs_rate h6
    have := C133_each_excess_partial o total P C h hc w kf kr hnd hlf hlr ⟨hkf, hkr, hP, hC, hw0⟩ hside hn hone 0 e1 s hs i states is fs k h1 h2 h2' h3 h3' h4
    rw [hall, mul_zero] at this
    by_contra hlt
    exact absurd this (not_le.mpr (mul_pos (mul_pos h5 hx) (by linarith [not_le.mp hlt])))

/-- **C133** Part: so for every distance a search with a sufficiently small tolerance returns coverages within this distance of a physical steady state, for every iterator
and every hybrid method that proposes no negative coverages. -/
theorem C133_each_search_near_partial (o : MFOwner ℝ) (total P C : Str → ℝ) (h : Ready o total P C) (hc : ∀ states ∈ o.net.rxns, RateClean states)
    (hpos : ∀ s ∈ o.net.sites, 0 ≤ total s) (kf kr : List ℝ) (hnd : o.rxns.Nodup) (hlf : kf.length = o.rxns.length) (hlr : kr.length = o.rxns.length)
    (hkf : ∀ k ∈ kf, 0 ≤ k) (hkr : ∀ k ∈ kr, 0 ≤ k) (hP : ∀ g ∈ o.net.gas, 0 ≤ P g) (hC : ∀ g ∈ o.net.liq, 0 ≤ C g)
    (hside : ∀ a ∈ o.net.ads, ∀ states ∈ o.net.rxns, OneSided a states)
    (hn : ∀ a ∈ o.net.ads, ∀ f, chemFormula a = .ok f → f.nsite = 1) (hone : ∀ states ∈ o.net.rxns, OneEmptyEachSide states)
    (hads : ∀ s ∈ o.net.sites, AdsorbsOnly o P C kf s) (ε : ℝ) (hε : 0 < ε) :
    ∃ δ, 0 < δ ∧ ∀ (env : SolveEnv ℝ) (n : Nat) (c0 : Option (List ℝ)) (st st' : SolveState ℝ) (v : Str → ℝ),
      env.resid = getResidual o (kf, kr) → env.tol ≤ δ → FromHybrid env (fun c => ∀ y ∈ c, 0 ≤ y) →
      getSteady env (constrainCoverages o) n c0 st = some (st', .returned (o.net.ads.map v)) →
      ∃ w, PhysicalSteady o total (kf, kr) w ∧ ∀ a ∈ o.net.ads, |v a - w a| ≤ ε := by
  obtain ⟨δ, hδ, hall⟩ := C133_each_close_partial o total P C h hc hpos kf kr hnd hlf hlr hkf hkr hP hC hside hn hone hads ε hε
  refine ⟨δ, hδ, fun env n c0 st st' v hres htol hhyb hx => ?_⟩
  obtain ⟨⟨r, hr, hle⟩, -⟩ := C31_residual env _ n c0 st st' _ hx
  rw [hres] at hr
  have hv := C31_nonneg_partial env _ (fun c c' hcc => fun y hy => ((constrain_physical o total P C h hpos hcc).unit y hy).1) hhyb n c0 st st' _ hx
  exact hall v r (fun a ha => hv _ (List.mem_map_of_mem ha)) hr (hle.trans htol)

/-- **C133** Part: and if there is only one physical steady state, it returns coverages close to it. -/
theorem C133_each_unique_partial (o : MFOwner ℝ) (total P C : Str → ℝ) (h : Ready o total P C) (hc : ∀ states ∈ o.net.rxns, RateClean states)
    (hpos : ∀ s ∈ o.net.sites, 0 ≤ total s) (kf kr : List ℝ) (hnd : o.rxns.Nodup) (hlf : kf.length = o.rxns.length) (hlr : kr.length = o.rxns.length)
    (hkf : ∀ k ∈ kf, 0 ≤ k) (hkr : ∀ k ∈ kr, 0 ≤ k) (hP : ∀ g ∈ o.net.gas, 0 ≤ P g) (hC : ∀ g ∈ o.net.liq, 0 ≤ C g)
    (hside : ∀ a ∈ o.net.ads, ∀ states ∈ o.net.rxns, OneSided a states)
    (hn : ∀ a ∈ o.net.ads, ∀ f, chemFormula a = .ok f → f.nsite = 1) (hone : ∀ states ∈ o.net.rxns, OneEmptyEachSide states)
    (hads : ∀ s ∈ o.net.sites, AdsorbsOnly o P C kf s) (w : Str → ℝ)
    (huniq : ∀ w', PhysicalSteady o total (kf, kr) w' → ∀ a ∈ o.net.ads, w' a = w a) (ε : ℝ) (hε : 0 < ε) :
    ∃ δ, 0 < δ ∧ ∀ (env : SolveEnv ℝ) (n : Nat) (c0 : Option (List ℝ)) (st st' : SolveState ℝ) (v : Str → ℝ),
      env.resid = getResidual o (kf, kr) → env.tol ≤ δ → FromHybrid env (fun c => ∀ y ∈ c, 0 ≤ y) →
      getSteady env (constrainCoverages o) n c0 st = some (st', .returned (o.net.ads.map v)) → ∀ a ∈ o.net.ads, |v a - w a| ≤ ε := by
  obtain ⟨δ, hδ, hall⟩ := C133_each_search_near_partial o total P C h hc hpos kf kr hnd hlf hlr hkf hkr hP hC hside hn hone hads ε hε
  refine ⟨δ, hδ, fun env n c0 st st' v hres htol hhyb hx a ha => ?_⟩
  obtain ⟨w', hw', hb⟩ := hall env n c0 st st' v hres htol hhyb hx
  rw [← huniq w' hw' a ha]
  exact hb a ha

/-! ### cases -/

/-- The condition on a network as a check. -/
def oneEmptyEachSideB (states : List (List Formula)) : Bool :=
  let ok := fun fs : List Formula => decide ((fs.filter isEmptySite).length ≤ 1) && fs.all fun f => !isEmptySite f || decide (f.stoich = 1)
  (match states.head? with | some fs => ok fs | none => true) && (match states.getLast? with | some fs => ok fs | none => true)

theorem oneEmptyEachSide_of {states : List (List Formula)} (h : oneEmptyEachSideB states = true) : OneEmptyEachSide states := by
  obtain ⟨ha, hb⟩ := Bool.and_eq_true_iff.mp h
  have key : ∀ fs : List Formula, (decide ((fs.filter isEmptySite).length ≤ 1) && fs.all fun f => !isEmptySite f || decide (f.stoich = 1)) = true →
      (fs.filter isEmptySite).length ≤ 1 ∧ ∀ f ∈ fs, isEmptySite f = true → f.stoich = 1 := by
    intro fs h
    obtain ⟨h1, h2⟩ := Bool.and_eq_true_iff.mp h
    refine ⟨of_decide_eq_true h1, fun f hf he => ?_⟩
    have := List.all_eq_true.mp h2 f hf
    rw [he] at this
    simpa using this
  rintro fs (h1 | h1)
  · rw [h1] at ha
    exact key fs ha
  · rw [h1] at hb
    exact key fs hb

/-- The network may have one empty site in each state where it had one in both together. -/
theorem OneEmptySite.each {states : List (List Formula)} (h : OneEmptySite states) : OneEmptyEachSide states := by
  intro fs hfs
  cases h1 : states.head? with
  | none =>
    rw [List.head?_eq_none_iff] at h1
    simp [h1] at hfs
  | some is =>
    cases h2 : states.getLast? with
    | none =>
      rw [List.getLast?_eq_none_iff] at h2
      simp [h2] at hfs
    | some gs =>
      obtain ⟨a, b⟩ := h is gs h1 h2
      rw [List.filter_append, List.length_append] at a
      rw [h1, h2] at hfs
      rcases hfs with e | e
      · cases e
        exact ⟨by omega, fun f hf => b f (List.mem_append_left _ hf)⟩
      · cases e
        exact ⟨by omega, fun f hf => b f (List.mem_append_right _ hf)⟩

/-- Carbon monoxide adsorbs on two kinds of sites and moves between them. -/
def hopRxns : List Str := [str! "CO_g + *_s -> CO_s", str! "CO_g + *_t -> CO_t", str! "CO_s + *_t -> *_s + CO_t"]

noncomputable def hopModel : MFOwner ℝ := ⟨hopRxns, netOf hopRxns, [(str! "*_s", 1), (str! "*_t", 1)], [(str! "CO_g", 2)], []⟩

theorem hop_sites : (netOf hopRxns).sites = [str! "*_s", str! "*_t"] := by decide

theorem hop_adsorbs (s : Str) (hs : s ∈ hopModel.net.sites) : AdsorbsOnly hopModel (fun _ => 2) (fun _ => 0) [3, 4, 5] s := by
  have hs : s ∈ (netOf hopRxns).sites := hs
  have hgas : ∀ i < 2, ∀ st, (netOf hopRxns).rxns[i]? = some st → ∀ is, st.head? = some is → ∀ f ∈ is, isEmptySite f = false →
      specKind f.species f.site = .gas := by decide
  rw [hop_sites] at hs
  rcases List.mem_cons.mp hs with rfl | hs
  · refine ⟨0, _, _, _, 3, rfl, rfl, rfl, by decide, by decide, rfl, by norm_num, fun f hf he => .inl ⟨?_, by norm_num⟩⟩
    exact hgas 0 (by norm_num) _ rfl _ rfl f hf he
  · obtain rfl := List.mem_singleton.mp hs
    refine ⟨1, _, _, _, 4, rfl, rfl, rfl, by decide, by decide, rfl, by norm_num, fun f hf he => .inl ⟨?_, by norm_num⟩⟩
    exact hgas 1 (by norm_num) _ rfl _ rfl f hf he

/-- The move needs one empty site and frees another, so the earlier condition fails. -/
example : ¬ ∀ st ∈ (netOf hopRxns).rxns, oneEmptySiteB st = true := by decide

theorem hop_ready : Ready hopModel (fun _ => 1) (fun _ => 2) (fun _ => 0) := by
  have h1 : parseNetwork hopRxns = .ok (netOf hopRxns) := by decide
  have h2 : (netOf hopRxns).gas = [str! "CO_g"] ∧ (netOf hopRxns).liq = [] := by decide
  refine ⟨h1, ?_, ?_, ?_⟩
  · intro s hs
    have hs : s ∈ (netOf hopRxns).sites := hs
    rw [hop_sites] at hs
    rcases List.mem_cons.mp hs with rfl | hs
    · rfl
    · obtain rfl := List.mem_singleton.mp hs
      rfl
  · intro g hg
    have hg : g ∈ (netOf hopRxns).gas := hg
    rw [h2.1] at hg
    obtain rfl := List.mem_singleton.mp hg
    rfl
  · intro g hg
    have hg : g ∈ (netOf hopRxns).liq := hg
    rw [h2.2] at hg
    cases hg

/-- Searches with a small tolerance end near a physical steady state there too. -/
example (ε : ℝ) (hε : 0 < ε) : ∃ δ, 0 < δ ∧ ∀ (v : Str → ℝ) (r : ℝ), (∀ a ∈ hopModel.net.ads, 0 ≤ v a) →
    getResidual hopModel ([3, 4, 5], [2, 1, 1]) (hopModel.net.ads.map v) = .ok r → r ≤ δ →
    ∃ w, PhysicalSteady hopModel (fun _ => 1) ([3, 4, 5], [2, 1, 1]) w ∧ ∀ a ∈ hopModel.net.ads, |v a - w a| ≤ ε := by
  refine C133_each_close_partial hopModel (fun _ => 1) (fun _ => 2) (fun _ => 0) hop_ready ?_ (fun _ _ => zero_le_one) [3, 4, 5] [2, 1, 1]
    (by decide) rfl rfl (by simp) (by simp) (fun _ _ => zero_le_two) (fun _ _ => le_rfl) ?_ ?_ ?_ hop_adsorbs ε hε
  · intro st hst
    exact rateClean_of ((by decide : ∀ st ∈ (netOf hopRxns).rxns, rateCleanB st = true) st hst)
  · intro a ha st hst
    exact oneSided_of ((by decide : ∀ a ∈ (netOf hopRxns).ads, ∀ st ∈ (netOf hopRxns).rxns, oneSidedB a st = true) a ha st hst)
  · have : ∀ a ∈ (netOf hopRxns).ads, (match chemFormula a with | .ok f => decide (f.nsite = 1) | .error _ => true) = true := by decide
    intro a ha f hf
    have := this a ha
    rw [hf] at this
    simpa using this
  · intro st hst
    exact oneEmptyEachSide_of ((by decide : ∀ st ∈ (netOf hopRxns).rxns, oneEmptyEachSideB st = true) st hst)

end Verif
