import Verif.Props.Overfull
import Verif.Props.Absent
/-
C133: networks in which no reaction needs or frees more than one empty site. There the search cannot return coverages that are over-full by more than
the tolerance allows.
-/
namespace Verif
open Dict
set_option linter.unusedSectionVars false
variable {K : Type} [Field K] [LinearOrder K] [IsStrictOrderedRing K]

/-- Whether a formula is an empty site. -/
def isEmptySite (f : Formula) : Bool := decide (specKind f.species f.site = .empty)

/-- The reaction has at most one empty site in its first and last state together, with the coefficient one. -/
def OneEmptySite (states : List (List Formula)) : Prop :=
  ∀ is fs, states.head? = some is → states.getLast? = some fs →
    ((is ++ fs).filter isEmptySite).length ≤ 1 ∧ ∀ f ∈ is ++ fs, isEmptySite f = true → f.stoich = 1

/-- The activity of a state without its empty sites. -/
def restActivity (P C θ : Str → K) (fs : List Formula) : K := stateActivity P C θ (fs.filter fun f => !isEmptySite f)

theorem stateActivity_split (P C θ : Str → K) (fs : List Formula) :
    stateActivity P C θ fs = stateActivity P C θ (fs.filter isEmptySite) * restActivity P C θ fs := by
  unfold restActivity stateActivity
  induction fs with
  | nil => simp
  | cons f fs ih =>
    rw [List.map_cons, List.prod_cons, ih]
    cases hf : isEmptySite f with
    | true => rw [List.filter_cons_of_pos hf, List.filter_cons_of_neg (by simp [hf]), List.map_cons, List.prod_cons]; ring
    | false => rw [List.filter_cons_of_neg (by simp [hf]), List.filter_cons_of_pos (by simp [hf]), List.map_cons, List.prod_cons]; ring

/-- Rate constants, pressures, concentrations and the coverages of the adsorbates are not negative. Sites may be over-full. -/
structure NonnegState (o : MFOwner K) (P C v : Str → K) (kf kr : List K) : Prop where
  kf : ∀ k ∈ kf, 0 ≤ k
  kr : ∀ k ∈ kr, 0 ≤ k
  gas : ∀ g ∈ o.net.gas, 0 ≤ P g
  liq : ∀ g ∈ o.net.liq, 0 ≤ C g
  ads : ∀ a ∈ o.net.ads, 0 ≤ v a

theorem rest_nonneg {o : MFOwner K} {total P C v : Str → K} {kf kr : List K} (h : Ready o total P C) (hph : NonnegState o P C v kf kr)
    {fs : List Formula} (hocc : ∀ f ∈ fs, OccursIn o.rxns f) (hts : ∀ f ∈ fs, specKind f.species f.site ≠ .ts) :
    0 ≤ restActivity P C (coverage o.net total v) fs := by
  refine stateActivity_nonneg fun f hf => ?_
  obtain ⟨hf, he⟩ := List.mem_filter.mp hf
  have once := C08_listed_exactly_once _ _ h.parse f (hocc f hf)
  unfold specAct
  cases hk : specKind f.species f.site with
  | gas => exact hph.gas _ ((once .gas).mpr ⟨hk, by decide⟩)
  | liquid => exact hph.liq _ ((once .liquid).mpr ⟨hk, by decide⟩)
  | ts => exact absurd hk (hts f hf)
  | ads =>
    have ha : f.speciesSite ∈ o.net.ads := (once .ads).mpr ⟨hk, by decide⟩
    dsimp only
    unfold coverage
    rw [if_pos ha]
    exact hph.ads _ ha
  | empty => simp [isEmptySite, hk] at he

theorem site_is_empty {o : MFOwner K} {total P C : Str → K} (h : Ready o total P C) {s : Str} (hs : s ∈ o.net.sites) {f : Formula}
    (hf : OccursIn o.rxns f) (e : f.speciesSite = s) : isEmptySite f = true := by
  have hm : f.speciesSite ∈ o.net.siteCols := by
    unfold Network.siteCols
    rw [e]
    exact List.mem_append_left _ hs
  rcases (listed_iff h.parse hf).2.2 hm with hk | hk
  · have ha : f.speciesSite ∈ o.net.ads := (C08_listed_exactly_once _ _ h.parse f hf .ads).mpr ⟨hk, by decide⟩
    exact absurd (e ▸ ha) (sites_disjoint h.parse s hs)
  · simp [isEmptySite, hk]

theorem totalCoef_empty {o : MFOwner K} {total P C : Str → K} (h : Ready o total P C) {s : Str} (hs : s ∈ o.net.sites) {fs : List Formula}
    (hocc : ∀ f ∈ fs, OccursIn o.rxns f) : totalCoef s fs = totalCoef s (fs.filter isEmptySite) := by
  unfold totalCoef
  rw [List.filter_filter]
  congr 2
  refine List.filter_congr fun f hf => ?_
  by_cases e : f.speciesSite = s
  · rw [site_is_empty h hs (hocc f hf) e]
    simp [e]
  · simp [e]

/-- One reaction on an over-full site: it frees sites on balance, and if it needs an empty site it frees at least what it would take if the site were
as empty as it is over-full. -/
theorem reaction_frees {o : MFOwner K} {total P C v : Str → K} {kf kr : List K} (h : Ready o total P C) (hph : NonnegState o P C v kf kr)
    {states : List (List Formula)} {is fs : List Formula} (hc : RateClean states) (h1 : states.head? = some is) (h2 : states.getLast? = some fs)
    (o1 : ∀ f ∈ is, OccursIn o.rxns f) (o2 : ∀ f ∈ fs, OccursIn o.rxns f) (hone : OneEmptySite states) {s : Str} (hs : s ∈ o.net.sites)
    (hover : coverage o.net total v s ≤ 0) {a b : K} (ha : 0 ≤ a) (hb : 0 ≤ b) :
    0 ≤ (produced s states : K) * (a * stateActivity P C (coverage o.net total v) is - b * stateActivity P C (coverage o.net total v) fs) ∧
    (0 < totalCoef s is → a * restActivity P C (coverage o.net total v) is * (- coverage o.net total v s) ≤
      (produced s states : K) * (a * stateActivity P C (coverage o.net total v) is - b * stateActivity P C (coverage o.net total v) fs)) := by
  obtain ⟨hlen, hco⟩ := hone is fs h1 h2
  have r1 := rest_nonneg h hph o1 fun f hf => (hc.1.1 is (.inl h1) f hf).1
  have r2 := rest_nonneg h hph o2 fun f hf => (hc.1.1 fs (.inr h2) f hf).1
  have single : ∀ f : Formula, isEmptySite f = true → f.stoich = 1 → stateActivity P C (coverage o.net total v) [f] = coverage o.net total v f.speciesSite := by
    intro f hf hst
    have hk : specKind f.species f.site = .empty := of_decide_eq_true hf
    unfold stateActivity specAct
    rw [List.map_singleton, List.prod_singleton, hst, pow_one, hk]
  have coef : ∀ f : Formula, f.stoich = 1 → totalCoef s [f] = if f.speciesSite = s then 1 else 0 := by
    intro f hst
    unfold totalCoef
    by_cases e : f.speciesSite = s <;> simp [e, hst]
  unfold produced
  rw [h1, h2]
  simp only [stateCoef]
  rw [totalCoef_empty h hs o1, totalCoef_empty h hs o2, stateActivity_split P C (coverage o.net total v) is,
    stateActivity_split P C (coverage o.net total v) fs]
  rw [List.filter_append, List.length_append] at hlen
  have nil1 : stateActivity P C (coverage o.net total v) [] = 1 := rfl
  have nil2 : totalCoef s [] = 0 := rfl
  rcases hi : is.filter isEmptySite with _ | ⟨f, l⟩
  · rcases hf : fs.filter isEmptySite with _ | ⟨g, l'⟩
    · rw [nil2]
      simp
    · rw [hi, hf] at hlen
      have : l' = [] := List.eq_nil_of_length_eq_zero (by simp at hlen ⊢; omega)
      subst this
      have hg := List.mem_filter.mp (hf ▸ List.mem_singleton_self g : g ∈ fs.filter isEmptySite)
      have hst := hco g (List.mem_append_right _ hg.1) hg.2
      rw [nil1, nil2, single g hg.2 hst, coef g hst]
      refine ⟨?_, fun h0 => absurd h0 (by simp)⟩
      by_cases e : g.speciesSite = s
      · rw [if_pos e, e]
        push_cast
        have := mul_nonneg ha r1
        have := mul_nonneg (mul_nonneg hb r2) (neg_nonneg.mpr hover)
        nlinarith
      · rw [if_neg e]
        simp
  · have hf : fs.filter isEmptySite = [] := by
      rw [hi, List.length_cons] at hlen
      exact List.eq_nil_of_length_eq_zero (by omega)
    have : l = [] := by
      rw [hi, List.length_cons] at hlen
      exact List.eq_nil_of_length_eq_zero (by omega)
    subst this
    have hg := List.mem_filter.mp (hi ▸ List.mem_singleton_self f : f ∈ is.filter isEmptySite)
    have hst := hco f (List.mem_append_left _ hg.1) hg.2
    rw [hf, nil1, nil2, single f hg.2 hst, coef f hst]
    by_cases e : f.speciesSite = s
    · rw [if_pos e, e]
      push_cast
      have k1 := mul_nonneg hb r2
      have k2 := mul_nonneg (mul_nonneg ha r1) (neg_nonneg.mpr hover)
      exact ⟨by nlinarith, fun _ => by nlinarith⟩
    · rw [if_neg e]
      exact ⟨by simp, fun h0 => absurd h0 (by simp)⟩

/-- **C133** Part: networks in which no reaction needs or frees more than one empty site. If coverages that are not negative have a small residual, no site is
over-full by much: for every reaction that needs an empty site `s`, the excess times what drives the reaction (its rate constant times the activities of all
but the empty site) is at most the residual times the number of adsorbates on `s`. -/
theorem C133_excess_partial (o : MFOwner K) (total P C : Str → K) (h : Ready o total P C) (hc : ∀ states ∈ o.net.rxns, RateClean states)
    (v : Str → K) (kf kr : List K) (hnd : o.rxns.Nodup) (hlf : kf.length = o.rxns.length) (hlr : kr.length = o.rxns.length)
    (hph : NonnegState o P C v kf kr) (hside : ∀ a ∈ o.net.ads, ∀ states ∈ o.net.rxns, OneSided a states)
    (hn : ∀ a ∈ o.net.ads, ∀ f, chemFormula a = .ok f → f.nsite = 1) (hone : ∀ states ∈ o.net.rxns, OneEmptySite states)
    (r : K) (hres : getResidual o (kf, kr) (o.net.ads.map v) = .ok r) (s : Str) (hs : s ∈ o.net.sites)
    (i : Nat) (states : List (List Formula)) (is : List Formula) (k : K) (hi : o.net.rxns[i]? = some states) (his : states.head? = some is)
    (hpos : 0 < totalCoef s is) (hk : kf[i]? = some k) :
    k * restActivity P C (coverage o.net total v) is * (((o.net.ads.filter fun a => OnSite a s).map v).sum - total s) ≤
      ((o.net.ads.filter fun a => OnSite a s).length : K) * r := by
  obtain ⟨κf, hκf⟩ := kOk_nodup hnd hlf
  obtain ⟨κr, hκr⟩ := kOk_nodup hnd hlr
  have hcov : coverage o.net total v s = total s - ((o.net.ads.filter fun a => OnSite a s).map v).sum := by
    unfold coverage
    rw [if_neg (sites_disjoint h.parse s hs)]
  have hl := length_rxns h.parse
  have hil : i < o.rxns.length := by
    have := (List.getElem?_eq_some_iff.mp hi).1
    omega
  -- the derivatives
  obtain ⟨net, e1, e2, e3⟩ := C26_derivatives_partial o total P C h hc v kf kr κf κr hκf hκr hside
  obtain ⟨net', derivs', e1', e4, e5⟩ := C27_sites_partial o total P C h hc v kf kr κf κr hκf hκr hside hn
  rw [e1] at e1'; cases e1'
  rw [e3] at e4; cases e4
  have hD : ∀ d ∈ o.net.ads.map (production o.net net), |d| ≤ r := by
    intro d hd
    obtain ⟨r', hr', -, hall, -⟩ := C30_residual o (kf, kr) _ _ e3 (List.ne_nil_of_mem hd)
    rw [hres] at hr'
    rw [Except.ok.inj hr']
    exact hall d hd
  have hr0 : 0 ≤ ((o.net.ads.filter fun a => OnSite a s).length : K) * r := by
    cases hl0 : (o.net.ads.filter fun a => OnSite a s) with
    | nil => simp
    | cons a l =>
      have ha : a ∈ o.net.ads := (List.mem_filter.mp (hl0 ▸ List.mem_cons_self .. : a ∈ o.net.ads.filter fun a => OnSite a s)).1
      exact mul_nonneg (Nat.cast_nonneg _) ((abs_nonneg _).trans (hD _ (List.mem_map_of_mem ha)))
  obtain ⟨st, is', fs, g1, g2, -, g4, g5, o1, o2⟩ := states_ok h.parse hil
  rw [hi] at g2; cases g2
  rw [his] at g4; cases g4
  have hk0 : 0 ≤ k := hph.kf _ (List.mem_of_getElem? hk)
  have hrest := rest_nonneg h hph o1 fun f hf => ((clean_at hc hi).1.1 is (.inl his) f hf).1
  rcases le_or_gt (coverage o.net total v s) 0 with hover | hover
  swap
  · have : ((o.net.ads.filter fun a => OnSite a s).map v).sum - total s ≤ 0 := by rw [hcov] at hover; linarith
    exact (mul_nonpos_of_nonneg_of_nonpos (mul_nonneg hk0 hrest) this).trans hr0
  -- the reactions
  obtain ⟨rfs, rrs, q1, q2, q3, q4⟩ := getRates_ok h hc v kf kr κf κr hκf hκr
  have hnet : net = List.zipWith (· - ·) rfs rrs := by
    unfold getNetRates at e1
    rw [q1] at e1
    exact (Except.ok.inj e1).symm
  have hterm : ∀ j (hj : j < o.rxns.length), ∃ st is fs, o.net.rxns[j]? = some st ∧ st.head? = some is ∧ st.getLast? = some fs ∧
      net[j]? = some (κf o.rxns[j] * stateActivity P C (coverage o.net total v) is - κr o.rxns[j] * stateActivity P C (coverage o.net total v) fs) ∧
      0 ≤ (produced s st : K) * (κf o.rxns[j] * stateActivity P C (coverage o.net total v) is - κr o.rxns[j] * stateActivity P C (coverage o.net total v) fs) ∧
      (0 < totalCoef s is → κf o.rxns[j] * restActivity P C (coverage o.net total v) is * (- coverage o.net total v s) ≤
        (produced s st : K) * (κf o.rxns[j] * stateActivity P C (coverage o.net total v) is - κr o.rxns[j] * stateActivity P C (coverage o.net total v) fs)) := by
    intro j hj
    obtain ⟨st, is, fs, g1, g2, -, g4, g5, o1, o2⟩ := states_ok h.parse hj
    obtain ⟨ra, rb⟩ := q4 j hj st is fs g1 g4 g5
    have := reaction_frees h hph (clean_at hc g2) g4 g5 o1 o2 (hone st (List.mem_of_getElem? g2)) hs hover
      (hph.kf _ (List.mem_of_getElem? (hκf.get j hj))) (hph.kr _ (List.mem_of_getElem? (hκr.get j hj)))
    refine ⟨st, is, fs, g2, g4, g5, ?_, this⟩
    rw [hnet, List.getElem?_zipWith, ra, rb]
  have hprod : k * restActivity P C (coverage o.net total v) is * (- coverage o.net total v s) ≤ production o.net net s := by
    obtain ⟨st', is'', fs', w1, w2, w3, w4, -, w6⟩ := hterm i hil
    rw [hi] at w1; cases w1
    rw [his] at w2; cases w2
    have hkk : κf o.rxns[i] = k := by
      have := hκf.get i hil
      rw [hk] at this
      exact (Option.some.inj this).symm
    rw [← hkk]
    refine (w6 hpos).trans ?_
    unfold production
    have hmem : (produced s states : K) * (κf o.rxns[i] * stateActivity P C (coverage o.net total v) is - κr o.rxns[i] * stateActivity P C (coverage o.net total v) fs') ∈
        List.zipWith (fun states r => (produced s states : K) * r) o.net.rxns net := by
      refine List.mem_of_getElem? (i := i) ?_
      rw [List.getElem?_zipWith, hi, w4]
    refine List.single_le_sum (fun x hx => ?_) _ hmem
    obtain ⟨j, hj, rfl⟩ := List.mem_iff_getElem.mp hx
    rw [List.length_zipWith] at hj
    obtain ⟨st, is, fs, z1, -, -, z4, z5, -⟩ := hterm j (by omega)
    rw [List.getElem?_eq_getElem (by omega)] at z1 z4
    rw [List.getElem_zipWith, Option.some.inj z1, Option.some.inj z4]
    exact z5
  -- the sum of the derivatives
  have hsum : - (((o.net.ads.filter fun a => OnSite a s).length : K) * r) ≤
      (((o.net.ads.zip (o.net.ads.map (production o.net net))).filter fun x => OnSite x.1 s).map (·.2)).sum := by
    have : ∀ l : List Str, (∀ a ∈ l, |production o.net net a| ≤ r) → - (((l.filter fun a => OnSite a s).length : K) * r) ≤
        (((l.zip (l.map (production o.net net))).filter fun x => OnSite x.1 s).map (·.2)).sum := by
      intro l
      induction l with
      | nil => simp
      | cons a l ih =>
        intro hl
        have ih := ih fun b hb => hl b (by simp [hb])
        have ha := (abs_le.mp (hl a (by simp))).1
        rw [List.map_cons, List.zip_cons_cons]
        by_cases e : OnSite a s
        · rw [List.filter_cons_of_pos (by simpa using e), List.filter_cons_of_pos (by simpa using e), List.map_cons, List.sum_cons, List.length_cons]
          push_cast
          nlinarith
        · rw [List.filter_cons_of_neg (by simpa using e), List.filter_cons_of_neg (by simpa using e)]
          exact ih
    exact this _ fun a ha => hD _ (List.mem_map_of_mem ha)
  have := e5 s hs
  have hneg : ((o.net.ads.filter fun a => OnSite a s).map v).sum - total s = - coverage o.net total v s := by rw [hcov]; ring
  rw [hneg]
  linarith

/-- **C133** Part: what a search returns in such a network, for every iterator and every hybrid method that proposes no negative coverages. Each site is over-full by
at most `n · tol / (k · w)`, with the number `n` of adsorbates on the site and, for any reaction that needs the site, its rate constant `k` and the activities
`w` of what else it needs; for an adsorption `w` is the pressure of the gas. The first guess needs no assumption. -/
theorem C133_search_excess_partial (o : MFOwner K) (total P C : Str → K) (h : Ready o total P C) (hc : ∀ states ∈ o.net.rxns, RateClean states)
    (hpos : ∀ s ∈ o.net.sites, 0 ≤ total s)
    (v : Str → K) (kf kr : List K) (hnd : o.rxns.Nodup) (hlf : kf.length = o.rxns.length) (hlr : kr.length = o.rxns.length)
    (hkf : ∀ k ∈ kf, 0 ≤ k) (hkr : ∀ k ∈ kr, 0 ≤ k) (hP : ∀ g ∈ o.net.gas, 0 ≤ P g) (hC : ∀ g ∈ o.net.liq, 0 ≤ C g)
    (hside : ∀ a ∈ o.net.ads, ∀ states ∈ o.net.rxns, OneSided a states)
    (hn : ∀ a ∈ o.net.ads, ∀ f, chemFormula a = .ok f → f.nsite = 1) (hone : ∀ states ∈ o.net.rxns, OneEmptySite states)
    (env : SolveEnv K) (hres : env.resid = getResidual o (kf, kr)) (hhyb : FromHybrid env (fun c => ∀ y ∈ c, 0 ≤ y))
    (n : Nat) (c0 : Option (List K)) (st st' : SolveState K)
    (hx : getSteady env (constrainCoverages o) n c0 st = some (st', .returned (o.net.ads.map v)))
    (s : Str) (hs : s ∈ o.net.sites) (i : Nat) (states : List (List Formula)) (is : List Formula) (k : K)
    (hi : o.net.rxns[i]? = some states) (his : states.head? = some is) (hneeds : 0 < totalCoef s is) (hk : kf[i]? = some k)
    (hw : 0 < k * restActivity P C (coverage o.net total v) is) :
    ((o.net.ads.filter fun a => OnSite a s).map v).sum ≤
      total s + ((o.net.ads.filter fun a => OnSite a s).length : K) * env.tol / (k * restActivity P C (coverage o.net total v) is) := by
  obtain ⟨⟨r, hr, htol⟩, -⟩ := C31_residual env _ n c0 st st' _ hx
  rw [hres] at hr
  have hv := C31_nonneg_partial env _ (fun c c' hcc => fun y hy => ((constrain_physical o total P C h hpos hcc).unit y hy).1) hhyb n c0 st st' _ hx
  have := C133_excess_partial o total P C h hc v kf kr hnd hlf hlr ⟨hkf, hkr, hP, hC, fun a ha => hv _ (List.mem_map_of_mem ha)⟩ hside hn hone r hr s hs
    i states is k hi his hneeds hk
  have h2 := this.trans (mul_le_mul_of_nonneg_left htol (Nat.cast_nonneg (o.net.ads.filter fun a => OnSite a s).length))
  rw [mul_comm, ← le_div_iff₀ hw] at h2
  linarith

/-! ### cases -/

/-- The condition on a network as a check. -/
def oneEmptySiteB (states : List (List Formula)) : Bool :=
  match states.head?, states.getLast? with
  | some is, some fs => decide (((is ++ fs).filter isEmptySite).length ≤ 1) && (is ++ fs).all fun f => !isEmptySite f || decide (f.stoich = 1)
  | _, _ => true

theorem oneEmptySite_of {states : List (List Formula)} (h : oneEmptySiteB states = true) : OneEmptySite states := by
  intro is fs h1 h2
  unfold oneEmptySiteB at h
  rw [h1, h2] at h
  obtain ⟨ha, hb⟩ := Bool.and_eq_true_iff.mp h
  refine ⟨of_decide_eq_true ha, fun f hf he => ?_⟩
  have := List.all_eq_true.mp hb f hf
  rw [he] at this
  simpa using this

/-- Two gases that adsorb on the same sites. The surface is over-full by 1/10. -/
def twoAds : List Str := [str! "CO_g + *_s -> CO_s", str! "NO_g + *_s -> NO_s"]

def twoAdsModel : MFOwner ℚ := ⟨twoAds, netOf twoAds, [(str! "*_s", 1)], [(str! "CO_g", 2), (str! "NO_g", 1)], []⟩

def twoAdsCvg (a : Str) : ℚ := if a = str! "CO_s" then 6 / 10 else 5 / 10

theorem twoAds_ready : Ready twoAdsModel (fun _ => 1) (fun g => if g = str! "CO_g" then 2 else 1) (fun _ => 0) :=
  ⟨by decide, by decide +kernel, by decide +kernel, by decide +kernel⟩

theorem twoAds_clean : ∀ states ∈ twoAdsModel.net.rxns, RateClean states :=
  fun st hst => rateClean_of ((by decide : ∀ st ∈ twoAdsModel.net.rxns, rateCleanB st = true) st hst)

theorem twoAds_one : ∀ states ∈ twoAdsModel.net.rxns, OneEmptySite states :=
  fun st hst => oneEmptySite_of ((by decide : ∀ st ∈ twoAdsModel.net.rxns, oneEmptySiteB st = true) st hst)

example : NonnegState twoAdsModel (fun g => if g = str! "CO_g" then 2 else 1) (fun _ => 0) twoAdsCvg [3, 4] [2, 1] ∧
    (∀ a ∈ twoAdsModel.net.ads, ∀ f, chemFormula a = .ok f → f.nsite = 1) ∧
    twoAdsModel.net.ads.map twoAdsCvg = [6 / 10, 5 / 10] ∧ getResidual twoAdsModel ([3, 4], [2, 1]) [6 / 10, 5 / 10] = .ok (18 / 10) ∧
    coverage twoAdsModel.net (fun _ => 1) twoAdsCvg (str! "*_s") = - (1 / 10) := by
  refine ⟨⟨by decide +kernel, by decide +kernel, by decide +kernel, by decide +kernel, by decide +kernel⟩, ?_, by decide +kernel, by decide +kernel,
    by decide +kernel⟩
  have : ∀ a ∈ twoAdsModel.net.ads, (match chemFormula a with | .ok f => decide (f.nsite = 1) | .error _ => true) = true := by decide
  intro a ha f hf
  have := this a ha
  rw [hf] at this
  simpa using this

theorem twoAds_oneSided : ∀ a ∈ twoAdsModel.net.ads, ∀ states ∈ twoAdsModel.net.rxns, OneSided a states :=
  fun a ha st hst => oneSided_of ((by decide : ∀ a ∈ twoAdsModel.net.ads, ∀ st ∈ twoAdsModel.net.rxns, oneSidedB a st = true) a ha st hst)

/-- A search that stops at these coverages, because of a large tolerance. -/
def twoAdsEnv : SolveEnv ℚ :=
  ⟨getResidual twoAdsModel ([3, 4], [2, 1]), getResidual twoAdsModel ([3, 4], [2, 1]), fun _ => ([([6 / 10, 5 / 10], 0)], .stopped), 2, 10, none, [], false⟩

example : FromHybrid twoAdsEnv (fun c => ∀ y ∈ c, 0 ≤ y) ∧
    ∃ st', getSteady twoAdsEnv (constrainCoverages twoAdsModel) 1 (some [0, 0]) ⟨none, none, false, [], []⟩
      = some (st', .returned (twoAdsModel.net.ads.map twoAdsCvg)) ∧
    ∃ states is, twoAdsModel.net.rxns[0]? = some states ∧ states.head? = some is ∧ 0 < totalCoef (str! "*_s") is ∧
      restActivity (fun g => if g = str! "CO_g" then (2 : ℚ) else 1) (fun _ => 0) (coverage twoAdsModel.net (fun _ => 1) twoAdsCvg) is = 2 := by
  refine ⟨fun g st outer c hg => (nomatch hg), ⟨some [6 / 10, 5 / 10], some 0, true, [], [.coverages [6 / 10, 5 / 10], .error 0, .guess [0, 0]]⟩,
    by decide +kernel, _, _, rfl, rfl, by decide +kernel, by decide +kernel⟩

/-- The condition matters: dissociation needs two empty sites, and an over-full surface is at rest there (`C133_overfull_refuted`). -/
example : oneEmptySiteB <$> ((netOf [str! "O2_g + 2*_s -> 2O_s"]).rxns) = [false] := by decide

end Verif
