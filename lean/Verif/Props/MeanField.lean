import Verif.Lemmas.Balance
import Verif.Props.Energy
import Verif.Props.Rates
import Mathlib.Tactic.FieldSimp
/-
Properties C11, C18, C23, C25, C26, C27, C61, C62, C69: rates, coverage equations, turnover
frequencies.
-/
namespace Verif
open Dict
set_option linter.unusedSectionVars false
variable {K : Type} [Field K]

/-! ## C23 coverage conversion -/

/-- A coverage tuple of the right length, written as a function of the adsorbate. -/
theorem tuple_as_function {names : List Str} (hn : names.Nodup) {cvgs : List K}
    (h : cvgs.length = names.length) : ∃ v : Str → K, cvgs = names.map v := by
  refine ⟨fun a => (cvgs[names.idxOf a]?).getD 0, ?_⟩
  apply List.ext_getElem
  · simp [h]
  · intro i h1 h2
    rw [List.getElem_map, List.Nodup.idxOf_getElem hn, List.getElem?_eq_getElem h1]
    rfl

theorem ads_nodup {rxns : List Str} {n : Network} (h : parseNetwork rxns = .ok n) : n.ads.Nodup :=
  ((C08_lists_sorted _ _ h).1 .ads).2

/-- The dictionary gives free sites the rest of the total, and converting back returns the
tuple. -/
theorem C23_conversion (o : MFOwner K) (total P C : Str → K) (h : Ready o total P C) (cvgs : List K)
    (hlen : cvgs.length = o.net.ads.length) :
    ∃ d, cvgTuple2Dict o cvgs = .ok d ∧ cvgDict2Tuple o d = .ok cvgs ∧
      ∀ s ∈ o.net.sites, ∃ free, get? d s = some free ∧
        free + (((o.net.ads.zip cvgs).filter fun x => OnSite x.1 s).map (·.2)).sum = total s := by
  have hnd := ads_nodup h.parse
  obtain ⟨v, rfl⟩ := tuple_as_function hnd hlen
  obtain ⟨d, h1, h2, -⟩ := cvgTuple2Dict_ok h v
  refine ⟨d, h1, ?_, ?_⟩
  · unfold cvgDict2Tuple
    apply mapM_dictGet
    intro a ha
    rw [h2 a (by unfold Network.siteCols; simp [ha])]
    simp [coverage, ha]
  · intro s hs
    refine ⟨_, h2 s (by unfold Network.siteCols; simp [hs]), ?_⟩
    rw [coverage, if_neg (sites_disjoint h.parse s hs)]
    have : ∀ l : List Str, (((l.zip (l.map v)).filter fun x => OnSite x.1 s).map (·.2))
        = (l.filter fun a => OnSite a s).map v := by
      intro l
      induction l with
      | nil => rfl
      | cons a l ih =>
        by_cases ha : OnSite a s <;> simp [ha, ih]
    rw [this]
    ring

/-- Every adsorbate belongs to exactly one site type: the one its name ends with. -/
theorem C23_one_site (rxns : List Str) (n : Network) (h : parseNetwork rxns = .ok n) (a : Str)
    (ha : a ∈ n.ads) : (∃! s, s ∈ n.sites ∧ OnSite a s) ∧
      ∀ f, OccursIn rxns f → f.speciesSite = a → OnSite a (str! "*_" ++ f.site) := by
  obtain ⟨s, hs, hon⟩ := ads_onSite h ha
  refine ⟨⟨s, ⟨hs, hon⟩, ?_⟩, ?_⟩
  · rintro t ⟨-, ht⟩
    unfold OnSite at hon ht
    rw [hon] at ht
    exact (Except.ok.inj ht).symm
  · rintro f hf rfl
    obtain ⟨ns, gf⟩ := network_good h f ((mem_flat_iff h f).mpr hf)
    unfold OnSite siteNameOf
    rw [gf.reparse]
    rfl

theorem adsCoverages_short (names : List Str) (cvgs : List K) (as : List Str) (d : Dict Str K)
    (h : ∃ a ∈ as, cvgs.length ≤ names.idxOf a) : adsCoverages names cvgs d as = .error .IndexError := by
  induction as generalizing d with
  | nil => simp at h
  | cons a as ih =>
    unfold adsCoverages
    by_cases ha : cvgs.length ≤ names.idxOf a
    · rw [List.getElem?_eq_none ha]; rfl
    · rw [List.getElem?_eq_getElem (by omega)]
      obtain ⟨b, hb, hl⟩ := h
      exact ih _ ⟨b, by
        rcases List.mem_cons.mp hb with e | e
        · subst e; exact absurd hl ha
        · exact e, hl⟩

/-- A tuple that is too short is rejected. -/
theorem C23_short_tuple (o : MFOwner K) (h : parseNetwork o.rxns = .ok o.net) (cvgs : List K)
    (hlen : cvgs.length < o.net.ads.length) : cvgTuple2Dict o cvgs = .error .IndexError := by
  obtain ⟨cls, hc, -⟩ := classifyAds_ok h
  unfold cvgTuple2Dict
  rw [hc]
  simp only [bind, Except.bind]
  rw [adsCoverages_short]
  refine ⟨o.net.ads[cvgs.length], List.getElem_mem _, ?_⟩
  rw [List.Nodup.idxOf_getElem (ads_nodup h)]

/-! ### the example: CO oxidation -/

/-- The network of reactions that are accepted, for examples. -/
def netOf (rxns : List Str) : Network :=
  match parseNetwork rxns with
  | .ok n => n
  | .error _ => ⟨[], [], [], [], [], []⟩

def exP (g : Str) : ℚ := if g = str! "CO_g" then 1 / 2 else if g = str! "O2_g" then 1 / 4 else 1 / 8
def exMF : MFOwner ℚ :=
  ⟨exRxns, exNet, [(str! "*_s", 1)],
    [(str! "CO_g", 1 / 2), (str! "O2_g", 1 / 4), (str! "CO2_g", 1 / 8)], []⟩
theorem exMF_ready : Ready exMF (fun _ => 1) exP (fun _ => 0) :=
  ⟨exNet_ok, by decide +kernel, by decide +kernel, by decide +kernel⟩

example : cvgTuple2Dict exMF [1 / 2, 1 / 5] = .ok
    [(str! "CO_s", 1 / 2), (str! "O_s", 1 / 5), (str! "*_s", 3 / 10)] := by decide +kernel

/-- A check of `RateClean` by computation. -/
def rateCleanB (states : List (List Formula)) : Bool :=
  (states.head?.toList ++ states.getLast?.toList).all fun fs => fs.all fun f =>
    let k := specKind f.species f.site
    decide (k ≠ .ts) && decide (k = .empty → f.species = str! "*") &&
      decide (k = .empty → f.speciesSite = str! "*_" ++ f.site) &&
      decide ((k = .gas ∨ k = .liquid) → '*' ∉ f.speciesSite)

theorem rateClean_of {states : List (List Formula)} (h : rateCleanB states = true) : RateClean states := by
  unfold rateCleanB at h
  simp only [List.all_eq_true, List.mem_append, Option.mem_toList, Bool.and_eq_true, decide_eq_true_eq] at h
  refine ⟨⟨fun fs hfs f hf => ?_, fun fs hfs f hf => ?_⟩, fun fs hfs f hf => ?_⟩
  · exact ⟨(h fs hfs f hf).1.1.1, (h fs hfs f hf).1.1.2⟩
  · exact (h fs hfs f hf).1.2
  · exact (h fs hfs f hf).2

theorem exMF_clean : ∀ states ∈ exMF.net.rxns, RateClean states :=
  fun st hst => rateClean_of ((by decide : ∀ st ∈ exMF.net.rxns, rateCleanB st = true) st hst)

/-! ## C25 law of mass action -/

/-- Rate constants computed by the solver agree for repeated texts. -/
theorem kOk_rateConstants {ro : RateOwner} {algo : RateAlgo} {rel : RelDict ℝ} {kf kr : List ℝ}
    (h : rateConstants ro algo rel = .ok (kf, kr)) :
    kf.length = ro.rxns.length ∧ kr.length = ro.rxns.length ∧
    ∃ κf κr, KOk ro.rxns kf κf ∧ KOk ro.rxns kr κr := by
  unfold rateConstants at h
  rw [guard_ok] at h
  obtain ⟨-, h⟩ := h
  have key : ∀ g : Str → Py (ℝ × ℝ), ((do
      let l ← ro.rxns.mapM g
      pure (l.map (·.1), l.map (·.2))) : Py (List ℝ × List ℝ)) = .ok (kf, kr) → kf.length = ro.rxns.length ∧
      kr.length = ro.rxns.length ∧ ∃ κf κr, KOk ro.rxns kf κf ∧ KOk ro.rxns kr κr := by
    intro g hg
    rw [bind_ok] at hg
    obtain ⟨l, hg, h⟩ := hg
    rw [pure_ok] at h
    obtain ⟨rfl, rfl⟩ := Prod.mk.inj h
    obtain ⟨m1, m2⟩ := mapM_ok_inv hg
    refine ⟨by simp [m1], by simp [m1], fun r => match g r with | .ok x => x.1 | .error _ => 0,
      fun r => match g r with | .ok x => x.2 | .error _ => 0, ⟨?_⟩, ⟨?_⟩⟩
    · intro i hi
      rw [m2 i hi (by omega)]
      simp [m1, hi]
    · intro i hi
      rw [m2 i hi (by omega)]
      simp [m1, hi]
  cases algo with
  | TST => exact key _ h
  | CT => exact key _ h
  | other => cases h

/-- Any lists of rate constants will do if no reaction is repeated. -/
theorem kOk_nodup {rxns : List Str} (hn : rxns.Nodup) {k : List K} (h : k.length = rxns.length) :
    ∃ κ, KOk rxns k κ := by
  obtain ⟨κ, rfl⟩ := tuple_as_function hn h
  exact ⟨κ, ⟨fun i hi => by simp [hi]⟩⟩

/-- For distinct reactions with clean end states and any rate constants: each rate is the rate
constant times the activities of the first (last) state. Missing: end states with transition
states or starred adsorbates, see the refutation. -/
theorem C25_mass_action_partial (o : MFOwner K) (total P C : Str → K) (h : Ready o total P C)
    (hc : ∀ states ∈ o.net.rxns, RateClean states) (v : Str → K) (kf kr : List K)
    (hnd : o.rxns.Nodup) (hf : kf.length = o.rxns.length) (hr : kr.length = o.rxns.length) :
    ∃ rfs rrs, getRates o (kf, kr) (o.net.ads.map v) = .ok (rfs, rrs) ∧
      rfs.length = o.rxns.length ∧ rrs.length = o.rxns.length ∧
      ∀ i (hi : i < o.rxns.length) states is fs, eqnFormulas o.rxns[i] = .ok states →
        states.head? = some is → states.getLast? = some fs →
        ∃ a b, kf[i]? = some a ∧ kr[i]? = some b ∧
        rfs[i]? = some (a * stateActivity P C (coverage o.net total v) is) ∧
        rrs[i]? = some (b * stateActivity P C (coverage o.net total v) fs) := by
  obtain ⟨κf, hκf⟩ := kOk_nodup hnd hf
  obtain ⟨κr, hκr⟩ := kOk_nodup hnd hr
  obtain ⟨rfs, rrs, h1, h2, h3, h4⟩ := getRates_ok h hc v kf kr κf κr hκf hκr
  exact ⟨rfs, rrs, h1, h2, h3, fun i hi st is fs e1 e2 e3 =>
    ⟨_, _, hκf.get i hi, hκr.get i hi, h4 i hi st is fs e1 e2 e3⟩⟩

/-- With the rate constants the solver computes, repetitions are allowed too. -/
theorem C25_solver_constants_partial (o : MFOwner ℝ) (total P C : Str → ℝ) (h : Ready o total P C)
    (hc : ∀ states ∈ o.net.rxns, RateClean states) (v : Str → ℝ) (ro : RateOwner) (hro : ro.rxns = o.rxns)
    (algo : RateAlgo) (rel : RelDict ℝ) (kf kr : List ℝ) (hk : rateConstants ro algo rel = .ok (kf, kr)) :
    ∃ rfs rrs, getRates o (kf, kr) (o.net.ads.map v) = .ok (rfs, rrs) ∧
      rfs.length = o.rxns.length ∧ rrs.length = o.rxns.length ∧
      ∀ i (hi : i < o.rxns.length) states is fs, eqnFormulas o.rxns[i] = .ok states →
        states.head? = some is → states.getLast? = some fs →
        ∃ a b, kf[i]? = some a ∧ kr[i]? = some b ∧
        rfs[i]? = some (a * stateActivity P C (coverage o.net total v) is) ∧
        rrs[i]? = some (b * stateActivity P C (coverage o.net total v) fs) := by
  obtain ⟨-, -, κf, κr, hκf, hκr⟩ := kOk_rateConstants hk
  rw [hro] at hκf hκr
  obtain ⟨rfs, rrs, h1, h2, h3, h4⟩ := getRates_ok h hc v kf kr κf κr hκf hκr
  exact ⟨rfs, rrs, h1, h2, h3, fun i hi st is fs e1 e2 e3 =>
    ⟨_, _, hκf.get i hi, hκr.get i hi, h4 i hi st is fs e1 e2 e3⟩⟩

/-- Intermediate states do not enter: two reactions with the same ends have the same expressions. -/
theorem C25_middle_irrelevant (o : MFOwner K) (rxn : Str) (states states' : List (List Formula)) (i : Nat)
    (hi : o.rxns.idxOf rxn = i) (h1 : o.net.rxns[i]? = some states)
    (e1 : states.head? = states'.head?) (e2 : states.getLast? = states'.getLast?) :
    rateTerms { o with net := { o.net with rxns := o.net.rxns.set i states' } } rxn = rateTerms o rxn := by
  have hlt : i < o.net.rxns.length := (List.getElem?_eq_some_iff.mp h1).1
  unfold rateTerms
  dsimp only
  rw [hi, h1, List.getElem?_set_self hlt]
  simp only [← e1, ← e2]

/-- The rates of CO oxidation. -/
example : getRates exMF ([2, 3, 5], [7, 11, 13]) [1 / 2, 1 / 5] = .ok
    ([2 * (1 / 2) * (3 / 10), 3 * (1 / 4) * (3 / 10) ^ 2, 5 * (1 / 2) * (1 / 5)],
     [7 * (1 / 2), 11 * (1 / 5) ^ 2, 13 * (1 / 8) * (3 / 10) ^ 2]) := by decide +kernel

example : exMF.rxns.Nodup := by decide

/-- A transition state as end state is accepted by the parser but has no coverage: no rates. -/
theorem C25_transition_state_end_refuted :
    let rxns := [str! "CO_s + O_s -> CO-O_2s"]
    ∃ n, parseNetwork rxns = .ok n ∧
      getRates (⟨rxns, n, [(str! "*_s", 1)], [], []⟩ : MFOwner ℚ) ([1], [1]) [1 / 2, 1 / 2] = .error .KeyError := by
  refine ⟨netOf [str! "CO_s + O_s -> CO-O_2s"], ?_, ?_⟩
  · decide
  · decide +kernel

/-! ## C26 coverage derivatives -/

/-- What the code computes in general: the number from the first formula naming the adsorbate in
the first state containing it. -/
theorem steady_ok (o : MFOwner K) (total P C : Str → K) (h : Ready o total P C)
    (hc : ∀ states ∈ o.net.rxns, RateClean states) (v : Str → K) (kf kr : List K) (κf κr : Str → K)
    (hkf : KOk o.rxns kf κf) (hkr : KOk o.rxns kr κr) :
    ∃ net, getNetRates o (kf, kr) (o.net.ads.map v) = .ok net ∧ net.length = o.rxns.length ∧
      steadyStateFunction o (kf, kr) (o.net.ads.map v) = .ok (o.net.ads.map fun a =>
        (List.zipWith (fun states r => (codeCoef a states : K) * r) o.net.rxns net).sum) := by
  obtain ⟨rfs, rrs, h1, h2, h3, h4⟩ := getRates_ok h hc v kf kr κf κr hkf hkr
  obtain ⟨env, he1, hef, her, he2⟩ := mkEnv_ok h v (kf, kr)
  have hl := length_rxns h.parse
  refine ⟨List.zipWith (· - ·) rfs rrs, ?_, by simp [h2, h3], ?_⟩
  · unfold getNetRates; rw [h1]; rfl
  · have each : ∀ a ∈ o.net.ads, ∃ q, adsorbateDtheta o a = .ok q ∧ evalPoly env q = .ok
        (List.zipWith (fun states r => (codeCoef a states : K) * r) o.net.rxns
          (List.zipWith (· - ·) rfs rrs)).sum := by
      intro a ha
      obtain ⟨q, hq1, hq2⟩ := adsorbate_ok h hc v κf κr (env := env) (by rw [hef]; exact hkf)
        (by rw [her]; exact hkr) he2 ha (fun i => (rfs[i]?).getD 0) (fun i => (rrs[i]?).getD 0)
        (fun i hi st is fs e1 e2 e3 => by
          obtain ⟨a1, a2⟩ := h4 i hi st is fs e1 e2 e3
          rw [a1, a2]; exact ⟨rfl, rfl⟩)
        (fun i => ((o.net.rxns[i]?).map (codeCoef a)).getD 0)
        (fun i st hst => by rw [hst]; rfl)
      refine ⟨q, hq1, ?_⟩
      rw [hq2, sum_zipWith_range _ _ _ (by simp [hl, h2, h3])
        (fun i => ((((o.net.rxns[i]?).map (codeCoef a)).getD 0 : Int) : K) * ((rfs[i]?).getD 0 - (rrs[i]?).getD 0)) ?_, hl]
      intro i i1 i2
      have i3 : i < rfs.length := by omega
      have i4 : i < rrs.length := by omega
      simp [List.getElem?_eq_getElem i1, List.getElem?_eq_getElem i3, List.getElem?_eq_getElem i4]
    obtain ⟨qs, hqs⟩ := mapM_ok_exists (f := adsorbateDtheta o) (l := o.net.ads)
      (fun a ha => by obtain ⟨q, hq, -⟩ := each a ha; exact ⟨q, hq⟩)
    obtain ⟨l1, l2⟩ := mapM_ok_inv hqs
    unfold steadyStateFunction
    rw [he1]
    simp only [bind, Except.bind, hqs]
    have hex : ∃ ys, qs.mapM (evalPoly env) = .ok ys := by
      apply mapM_ok_exists
      intro q hq
      obtain ⟨i, hi, rfl⟩ := List.mem_iff_getElem.mp hq
      obtain ⟨q', e1, e2⟩ := each _ (List.getElem_mem (l := o.net.ads) (n := i) (by omega))
      have := l2 i (by omega) hi
      rw [e1] at this
      rw [← Except.ok.inj this]
      exact ⟨_, e2⟩
    obtain ⟨ys, hys⟩ := hex
    obtain ⟨y1, y2⟩ := mapM_ok_inv hys
    rw [hys]
    congr 1
    apply List.ext_getElem
    · simp [y1, l1]
    · intro i i1 i2
      have i3 : i < o.net.ads.length := by simpa using i2
      obtain ⟨q', e1, e2⟩ := each _ (List.getElem_mem (l := o.net.ads) (n := i) i3)
      have a1 := l2 i i3 (by omega)
      rw [e1] at a1
      have a2 := y2 i (by omega) i1
      rw [← Except.ok.inj a1, e2] at a2
      rw [← Except.ok.inj a2, List.getElem_map]

/-- The adsorbate occurs in one end state only, in one formula, and in no intermediate state
before it. -/
def OneSided (a : Str) (states : List (List Formula)) : Prop :=
  (∀ fs ∈ states, ∀ f ∈ fs, f.speciesSite ≠ a) ∨
  (∃ is rest, states = is :: rest ∧ rest ≠ [] ∧ (is.filter fun f => f.speciesSite = a).length = 1 ∧
    ∀ fs, states.getLast? = some fs → ∀ f ∈ fs, f.speciesSite ≠ a) ∨
  (∃ front fs, states = front ++ [fs] ∧ front ≠ [] ∧ (fs.filter fun f => f.speciesSite = a).length = 1 ∧
    ∀ gs ∈ front, ∀ f ∈ gs, f.speciesSite ≠ a)

theorem find_of_filter {a : Str} {fs : List Formula} (h : (fs.filter fun f => f.speciesSite = a).length = 1) :
    ∃ f, fs.find? (·.speciesSite = a) = some f ∧ totalCoef a fs = f.stoich := by
  obtain ⟨f, hf⟩ := List.length_eq_one_iff.mp h
  refine ⟨f, ?_, by simp [totalCoef, hf]⟩
  rw [← List.head?_filter, hf]
  rfl

theorem find_none {a : Str} {fs : List Formula} (h : ∀ f ∈ fs, f.speciesSite ≠ a) :
    fs.find? (·.speciesSite = a) = none ∧ totalCoef a fs = 0 :=
  ⟨by simpa using h, C09_not_taking_part a fs h⟩

theorem codeCoef_oneSided {a : Str} {states : List (List Formula)} (h : OneSided a states) :
    codeCoef a states = produced a states := by
  have hnone : ∀ l : List (List Formula), (∀ fs ∈ l, ∀ f ∈ fs, f.speciesSite ≠ a) → findAds a l = none := by
    intro l hl
    induction l with
    | nil => rfl
    | cons fs l ih =>
      unfold findAds
      rw [(find_none (hl fs (by simp))).1]
      simp [ih fun gs hg => hl gs (by simp [hg])]
  rcases h with h | ⟨is, rest, rfl, hne, h1, h2⟩ | ⟨front, fs, rfl, hne, h1, h2⟩
  · have hz : ∀ st : Option (List Formula), (∀ fs, st = some fs → fs ∈ states) → stateCoef a st = 0 := by
      intro st hst
      cases st with
      | none => rfl
      | some fs => simp [stateCoef, (find_none (h fs (hst fs rfl))).2]
    unfold codeCoef produced
    rw [hnone _ h, hz _ fun fs e => List.mem_of_getLast? e, hz _ fun fs e => List.mem_of_head? e]
    rfl
  · obtain ⟨f, hf, ht⟩ := find_of_filter h1
    unfold codeCoef produced
    have : findAds a (is :: rest) = some (0, f.stoich) := by unfold findAds; rw [hf]
    rw [this]
    have hl : (is :: rest).getLast? = some ((is :: rest).getLast (by simp)) := List.getLast?_eq_some_getLast _
    rw [hl]
    simp [stateCoef, ht, (find_none (h2 _ hl)).2]
  · obtain ⟨f, hf, ht⟩ := find_of_filter h1
    have : ∀ front : List (List Formula), (∀ gs ∈ front, ∀ f ∈ gs, f.speciesSite ≠ a) →
        findAds a (front ++ [fs]) = some (front.length, f.stoich) := by
      intro front hfr
      induction front with
      | nil => simp [findAds, hf]
      | cons gs front ih =>
        rw [List.cons_append]
        unfold findAds
        rw [(find_none (hfr gs (by simp))).1, ih fun g hg => hfr g (by simp [hg])]
        rfl
    unfold codeCoef produced
    rw [this front h2]
    cases front with
    | nil => exact absurd rfl hne
    | cons gs front =>
      rw [show (gs :: front ++ [fs]).getLast? = some fs from List.getLast?_concat ..]
      simp [stateCoef, ht, (find_none (h2 gs (by simp))).2]

/-- For clean networks in which each adsorbate takes part on one side of each reaction, each
derivative is the sum over the reactions of the number produced times the net rate. Missing:
adsorbates on both sides, in several formulas, or only in an intermediate state (refuted below). -/
theorem C26_derivatives_partial (o : MFOwner K) (total P C : Str → K) (h : Ready o total P C)
    (hc : ∀ states ∈ o.net.rxns, RateClean states) (v : Str → K) (kf kr : List K) (κf κr : Str → K)
    (hkf : KOk o.rxns kf κf) (hkr : KOk o.rxns kr κr)
    (hone : ∀ a ∈ o.net.ads, ∀ states ∈ o.net.rxns, OneSided a states) :
    ∃ net, getNetRates o (kf, kr) (o.net.ads.map v) = .ok net ∧ net.length = o.rxns.length ∧
      steadyStateFunction o (kf, kr) (o.net.ads.map v) = .ok (o.net.ads.map (production o.net net)) := by
  obtain ⟨net, h1, h2, h3⟩ := steady_ok o total P C h hc v kf kr κf κr hkf hkr
  refine ⟨net, h1, h2, ?_⟩
  rw [h3]
  congr 1
  apply List.map_congr_left
  intro a ha
  unfold production
  congr 1
  have hall := hone a ha
  generalize o.net.rxns = rs at hall
  clear h1 h2 h3
  induction rs generalizing net with
  | nil => rfl
  | cons st rs ih =>
    cases net with
    | nil => rfl
    | cons r net =>
      rw [List.zipWith_cons_cons, List.zipWith_cons_cons, codeCoef_oneSided (hall st (by simp)),
        ih net fun s hs => hall s (by simp [hs])]

/-- A check of `OneSided` by computation. -/
def oneSidedB (a : Str) (states : List (List Formula)) : Bool :=
  states.all (fun fs => fs.all fun f => f.speciesSite ≠ a) ||
  (match states with
    | is :: r :: rest => decide ((is.filter fun f => f.speciesSite = a).length = 1) &&
        ((is :: r :: rest).getLast?.toList.all fun fs => fs.all fun f => f.speciesSite ≠ a)
    | _ => false) ||
  (match states.getLast? with
    | some fs => decide (states.dropLast ≠ []) && decide ((fs.filter fun f => f.speciesSite = a).length = 1) &&
        (states.dropLast.all fun gs => gs.all fun f => f.speciesSite ≠ a)
    | none => false)

theorem oneSided_of {a : Str} {states : List (List Formula)} (h : oneSidedB a states = true) :
    OneSided a states := by
  unfold oneSidedB at h
  simp only [Bool.or_eq_true] at h
  rcases h with (h | h) | h
  · left
    simpa using h
  · right; left
    match states, h with
    | is :: r :: rest, h =>
      simp only [Bool.and_eq_true, decide_eq_true_eq] at h
      refine ⟨is, r :: rest, rfl, by simp, h.1, ?_⟩
      intro fs hfs f hf
      have := h.2
      rw [hfs] at this
      simp only [Option.toList_some, List.all_cons, List.all_nil, Bool.and_true, List.all_eq_true,
        decide_eq_true_eq] at this
      exact this f hf
  · right; right
    cases hl : states.getLast? with
    | none => rw [hl] at h; cases h
    | some fs =>
      rw [hl] at h
      simp only [Bool.and_eq_true, decide_eq_true_eq, List.all_eq_true] at h
      exact ⟨states.dropLast, fs, (List.dropLast_append_getLast? fs hl).symm, h.1.1, h.1.2, h.2⟩

theorem exMF_oneSided : ∀ a ∈ exMF.net.ads, ∀ states ∈ exMF.net.rxns, OneSided a states :=
  fun a ha st hst => oneSided_of
    ((by decide : ∀ a ∈ exMF.net.ads, ∀ st ∈ exMF.net.rxns, oneSidedB a st = true) a ha st hst)

example : ∃ net, getNetRates exMF ([2, 3, 5], [7, 11, 13]) (exMF.net.ads.map fun _ => 1 / 4) = .ok net ∧
    net.length = 3 ∧ steadyStateFunction exMF ([2, 3, 5], [7, 11, 13]) (exMF.net.ads.map fun _ => 1 / 4)
      = .ok (exMF.net.ads.map (production exMF.net net)) := by
  obtain ⟨κf, hf⟩ := kOk_nodup (K := ℚ) (rxns := exMF.rxns) (by decide) (k := [2, 3, 5]) rfl
  obtain ⟨κr, hr⟩ := kOk_nodup (K := ℚ) (rxns := exMF.rxns) (by decide) (k := [7, 11, 13]) rfl
  exact C26_derivatives_partial exMF _ _ _ exMF_ready exMF_clean _ _ _ _ _ hf hr exMF_oneSided

/-- A spectator on both sides is changed by the equations although the reaction does not
change it. -/
theorem C26_both_sides_refuted :
    let rxns := [str! "H_s + CO_s -> H_s + OC_s"]
    let n := netOf rxns
    parseNetwork rxns = .ok n ∧ n.ads = [str! "CO_s", str! "H_s", str! "OC_s"] ∧
      (∀ st ∈ n.rxns, produced (str! "H_s") st = 0) ∧
      steadyStateFunction (⟨rxns, n, [(str! "*_s", 1)], [], []⟩ : MFOwner ℚ)
        ([1], [2]) [1 / 4, 1 / 4, 1 / 4] = .ok [1 / 16, 1 / 16, -1 / 16] := by
  refine ⟨?_, ?_, ?_, ?_⟩
  · decide
  · decide
  · decide
  · decide +kernel

/-- Two formulas for the same adsorbate: only the first is counted. -/
theorem C26_repeated_formula_refuted :
    let rxns := [str! "O2_g + 2*_s -> O_s + O_s"]
    let n := netOf rxns
    let o : MFOwner ℚ := ⟨rxns, n, [(str! "*_s", 1)], [(str! "O2_g", 1)], []⟩
    parseNetwork rxns = .ok n ∧ n.ads = [str! "O_s"] ∧ getNetRates o ([1], [0]) [0] = .ok [1] ∧
      production n [1] (str! "O_s") = (2 : ℚ) ∧ steadyStateFunction o ([1], [0]) [0] = .ok [1] := by
  refine ⟨?_, ?_, ?_, ?_, ?_⟩
  · decide
  · decide
  all_goals decide +kernel

/-- An adsorbate that occurs only in an intermediate state is produced by the equations. -/
theorem C26_intermediate_refuted :
    let rxns := [str! "HCO_s <-> COH_s -> OCH_s"]
    let n := netOf rxns
    let o : MFOwner ℚ := ⟨rxns, n, [(str! "*_s", 1)], [], []⟩
    parseNetwork rxns = .ok n ∧ n.ads = [str! "COH_s", str! "HCO_s", str! "OCH_s"] ∧
      (∀ st ∈ n.rxns, produced (str! "COH_s") st = 0) ∧
      steadyStateFunction o ([1], [0]) [0, 1, 0] = .ok [1, -1, 1] := by
  refine ⟨?_, ?_, ?_, ?_⟩
  · decide
  · decide
  · decide
  · decide +kernel

/-! ## C69 turnover frequencies -/

/-- The turnover frequencies are, for each gas and liquid in order, the numbers produced times the
net rates; asked for one gas, its own; unknown gases are rejected. -/
theorem C69_turnover (o : MFOwner K) (k : List K × List K) (cvgs net : List K)
    (h : parseNetwork o.rxns = .ok o.net) (hnet : getNetRates o k cvgs = .ok net)
    (hlen : net.length = o.rxns.length) :
    getTof o k cvgs = .ok ((o.net.gas ++ o.net.liq).map (production o.net net)) ∧
    (∀ g ∈ o.net.gas, getTofOf o k cvgs g = .ok (production o.net net g)) ∧
    (∀ g, g ∉ o.net.gas → getTofOf o k cvgs g = .error .ParameterError) := by
  have h1 : getTof o k cvgs = .ok ((o.net.gas ++ o.net.liq).map (production o.net net)) := by
    unfold getTof
    rw [hnet, stoich_rows h]
    simp only [bind, Except.bind, pure, Except.pure, List.map_map]
    congr 1
    have hr := rowTimes_eq o.net.reaproCols o.net.rxns net (by rw [length_rxns h, hlen])
    rw [show o.net.gas ++ o.net.liq = o.net.reaproCols from rfl]
    refine Eq.trans ?_ hr
    congr 1
    apply List.map_congr_left
    intro st _
    simp [Function.comp_def]
  refine ⟨h1, ?_, ?_⟩
  · intro g hg
    unfold getTofOf
    rw [h1]
    simp only [bind, Except.bind]
    rw [if_neg (by simpa using hg)]
    have hlt : o.net.gas.idxOf g < o.net.gas.length := List.idxOf_lt_length_of_mem hg
    rw [List.getElem?_map, List.getElem?_append_left hlt, List.getElem?_eq_getElem hlt, List.getElem_idxOf]
    rfl
  · intro g hg
    unfold getTofOf
    rw [h1]
    simp only [bind, Except.bind]
    rw [if_pos hg]

example : getTof exMF ([2, 3, 5], [0, 0, 0]) [1 / 2, 1 / 5] = .ok
    [5 * (1 / 2) * (1 / 5), - (2 * (1 / 2) * (3 / 10)), - (3 * (1 / 4) * (3 / 10) ^ 2)] := by decide +kernel

/-! ## C11 element balance of the turnover frequencies -/

theorem nameCount_site {rxns : List Str} {n : Network} (h : parseNetwork rxns = .ok n) {s : Str}
    (hs : s ∈ n.sites) : ∃ g, OccursIn rxns g ∧ g.site ≠ str! "g" ∧ g.site ≠ str! "l" ∧
      s = str! "*_" ++ g.site ∧ chemFormula s = .ok ⟨s, 1, str! "*", 1, g.site, s⟩ := by
  obtain ⟨g, hg, h1, h2, rfl⟩ := (C08_site_names _ _ h s).mp hs
  obtain ⟨ns, gg⟩ := network_good h g ((mem_flat_iff h g).mpr hg)
  refine ⟨g, hg, h1, h2, rfl, ?_⟩
  have := chemFormula_render (ds := []) (sp := ['*']) (ns := []) (site := g.site) (by simp)
    (by decide) (by decide) (by simp) gg.site gg.siteNe
  simpa [intOr1] using this

/-- If no adsorbate is produced, the turnover frequencies weighted by composition add to zero. -/
theorem C11_element_balance_partial (o : MFOwner K) (k : List K × List K) (cvgs net tofs : List K)
    (h : parseNetwork o.rxns = .ok o.net) (hc : ∀ states ∈ o.net.rxns, CleanEnds states)
    (hnet : getNetRates o k cvgs = .ok net) (hlen : net.length = o.rxns.length)
    (hsteady : ∀ a ∈ o.net.ads, production o.net net a = 0)
    (ht : getTof o k cvgs = .ok tofs) (e : Char) :
    (List.zipWith (fun t x => t * (nameCount e x : K)) tofs (o.net.gas ++ o.net.liq)).sum = 0 := by
  rw [(C69_turnover o k cvgs net h hnet hlen).1] at ht
  rw [← Except.ok.inj ht]
  have hz : ∀ l : List Str, (List.zipWith (fun t x => t * (nameCount e x : K)) (l.map (production o.net net)) l).sum
      = (l.map fun x => production o.net net x * (nameCount e x : K)).sum := by
    intro l
    rw [List.zipWith_map_left, List.zipWith_self]
  rw [hz]
  have hsum : (o.net.siteCols.map fun x => production o.net net x * (nameCount e x : K)).sum
      + ((o.net.gas ++ o.net.liq).map fun x => production o.net net x * (nameCount e x : K)).sum = 0 := by
    unfold production
    rw [production_swap, production_swap]
    have hb := fun st hst => element_balance (K := K) h (st := st) hst (hc st hst) e
    generalize o.net.rxns = rs at hb
    clear hnet hlen hsteady ht hz
    induction rs generalizing net with
    | nil => simp
    | cons st rs ih =>
      cases net with
      | nil => simp
      | cons r net =>
        have h1 := ih net fun s hs => hb s (by simp [hs])
        have h2 := hb st (by simp)
        simp only [List.zipWith_cons_cons, List.sum_cons]
        rw [show o.net.reaproCols = o.net.gas ++ o.net.liq from rfl] at h2
        linear_combination h1 + r * h2
  have hzero : (o.net.siteCols.map fun x => production o.net net x * (nameCount e x : K)).sum = 0 := by
    apply sum_map_zero
    intro x hx
    rcases List.mem_append.mp hx with hs | ha
    · obtain ⟨g, -, -, -, -, hf⟩ := nameCount_site h hs
      have : nameCount e x = 0 := by
        unfold nameCount
        rw [hf]
        rfl
      rw [this]; simp
    · rw [hsteady x ha]; simp
  rw [hzero, zero_add] at hsum
  exact hsum

/-- The same from the value of `steady_state_function`: all derivatives zero. -/
theorem C11_at_steady_state_partial (o : MFOwner K) (total P C : Str → K) (h : Ready o total P C)
    (hc : ∀ states ∈ o.net.rxns, RateClean states) (v : Str → K) (kf kr : List K) (κf κr : Str → K)
    (hkf : KOk o.rxns kf κf) (hkr : KOk o.rxns kr κr)
    (hone : ∀ a ∈ o.net.ads, ∀ states ∈ o.net.rxns, OneSided a states) (n : Nat)
    (hst : steadyStateFunction o (kf, kr) (o.net.ads.map v) = .ok (List.replicate n 0)) :
    ∃ tofs, getTof o (kf, kr) (o.net.ads.map v) = .ok tofs ∧
      ∀ e, (List.zipWith (fun t x => t * (nameCount e x : K)) tofs (o.net.gas ++ o.net.liq)).sum = 0 := by
  obtain ⟨net, h1, h2, h3⟩ := C26_derivatives_partial o total P C h hc v kf kr κf κr hkf hkr hone
  have ht := (C69_turnover o (kf, kr) (o.net.ads.map v) net h.parse h1 h2).1
  refine ⟨_, ht, fun e => C11_element_balance_partial o (kf, kr) _ net _ h.parse
    (fun st hs => (hc st hs).1.1) h1 h2 ?_ ht e⟩
  rw [hst] at h3
  have h3 := Except.ok.inj h3
  intro a ha
  have : production o.net net a ∈ List.replicate n (0 : K) := by
    rw [h3]; exact List.mem_map_of_mem ha
  exact List.eq_of_mem_replicate this

/-- A steady state of CO oxidation that is not an equilibrium: CO2 is produced at rate 1, and the
frequencies (CO2 +1, CO -1, O2 -1/2) balance carbon and oxygen. -/
example : ∃ k, getNetRates exMF k [1 / 4, 1 / 4] = .ok [1, 1 / 2, 1] ∧
    steadyStateFunction exMF k [1 / 4, 1 / 4] = .ok [0, 0] ∧
    getTof exMF k [1 / 4, 1 / 4] = .ok [1, -1, -1 / 2] :=
  ⟨([4, 8, 16], [0, 0, 0]), by decide +kernel, by decide +kernel, by decide +kernel⟩

/-! ## C27 site conservation -/

/-- Sums weighted with the numbers of sites of a type are sums over what is on these sites. -/
theorem site_weights {rxns : List Str} {n : Network} (h : parseNetwork rxns = .ok n)
    (hn : ∀ a ∈ n.ads, ∀ f, chemFormula a = .ok f → f.nsite = 1) {s : Str} (hs : s ∈ n.sites) {g : Formula}
    (hg1 : g.site ≠ str! "g") (hg2 : g.site ≠ str! "l") (hsg : s = str! "*_" ++ g.site) (d : Str → K) :
    (n.siteCols.map fun x => d x * (nameSites g.site x : K)).sum
      + (n.reaproCols.map fun x => d x * (nameSites g.site x : K)).sum
      = ((n.ads.filter fun a => OnSite a s).map d).sum + d s := by
  have hrea : (n.reaproCols.map fun x => d x * (nameSites g.site x : K)).sum = 0 := by
    apply sum_map_zero
    intro x hx
    have : nameSites g.site x = 0 := by
      have hx' : ∃ f, OccursIn rxns f ∧ f.speciesSite = x ∧ (f.site = str! "g" ∨ f.site = str! "l") := by
        have sk : ∀ f : Formula, specKind f.species f.site = .gas ∨ specKind f.species f.site = .liquid →
            f.site = str! "g" ∨ f.site = str! "l" := by
          intro f hk
          by_contra hcon
          rw [not_or] at hcon
          unfold specKind at hk
          rw [if_neg hcon.1, if_neg hcon.2] at hk
          simp only [List.contains_iff_mem] at hk
          by_cases a1 : '-' ∈ f.species <;> by_cases a2 : '*' ∈ f.species <;> simp [a1, a2] at hk
        rcases List.mem_append.mp hx with hx | hx
        · obtain ⟨f, hf, hk, he⟩ := (mem_names_iff h .gas (by decide) x).mp hx
          exact ⟨f, hf, he, sk f (Or.inl hk)⟩
        · obtain ⟨f, hf, hk, he⟩ := (mem_names_iff h .liquid (by decide) x).mp hx
          exact ⟨f, hf, he, sk f (Or.inr hk)⟩
      obtain ⟨f, hf, rfl, hsite⟩ := hx'
      obtain ⟨ns, gf⟩ := network_good h f ((mem_flat_iff h f).mpr hf)
      rw [nameSites_good gf, if_neg]
      rintro ⟨e1, e2, e3⟩
      rcases hsite with e | e
      · exact e2 (e1.symm.trans e)
      · exact e3 (e1.symm.trans e)
    rw [this]; simp
  have hsites : (n.sites.map fun x => d x * (nameSites g.site x : K)).sum
      = d s := by
    have hw : ∀ x ∈ n.sites, nameSites g.site x = if x = s then 1 else 0 := by
      intro x hx
      obtain ⟨g', -, -, -, e, hf⟩ := nameCount_site h hx
      unfold nameSites
      rw [hf]
      dsimp only
      by_cases hxs : x = s
      · rw [if_pos hxs, if_pos]
        · rfl
        · refine ⟨?_, hg1, hg2⟩
          rw [e, hsg] at hxs
          exact List.append_cancel_left hxs
      · rw [if_neg hxs, if_neg]
        rintro ⟨e1, -⟩
        exact hxs (by rw [e, hsg, e1])
    have hnd := (C08_lists_sorted _ _ h).2.2
    generalize n.sites = l at hs hw hnd
    induction l with
    | nil => simp at hs
    | cons x l ih =>
      rw [List.nodup_cons] at hnd
      rw [List.map_cons, List.sum_cons, hw x (by simp)]
      by_cases e : x = s
      · subst e
        rw [sum_map_zero l]
        · simp
        · intro y hy
          rw [hw y (by simp [hy]), if_neg (fun e : y = x => hnd.1 (e ▸ hy))]
          simp
      · rw [if_neg e, ih (by
          rcases List.mem_cons.mp hs with h | h
          · exact absurd h.symm e
          · exact h) (fun y hy => hw y (by simp [hy])) hnd.2]
        simp
  have hads : (n.ads.map fun x => d x * (nameSites g.site x : K)).sum
      = ((n.ads.filter fun a => OnSite a s).map d).sum := by
    have hw : ∀ a ∈ n.ads, nameSites g.site a = if OnSite a s then 1 else 0 := by
      intro a ha
      obtain ⟨f, hf, hk, rfl⟩ := (mem_names_iff h .ads (by decide) a).mp ha
      obtain ⟨ns, gf⟩ := network_good h f ((mem_flat_iff h f).mpr hf)
      have hns : f.nsite = 1 := by have := hn _ ha _ gf.reparse; exact this
      have hon : OnSite f.speciesSite s ↔ f.site = g.site := by
        unfold OnSite siteNameOf
        rw [gf.reparse, hsg]
        simp [bind, Except.bind, pure, Except.pure]
      rw [nameSites_good gf, hns]
      by_cases e : f.site = g.site
      · rw [if_pos ⟨e, hg1, hg2⟩, if_pos (hon.mpr e)]; rfl
      · rw [if_neg (fun h => e h.1), if_neg (fun h => e (hon.mp h))]
    generalize n.ads = l at hw
    induction l with
    | nil => rfl
    | cons a l ih =>
      rw [List.map_cons, List.sum_cons, ih fun b hb => hw b (by simp [hb]), hw a (by simp)]
      by_cases e : OnSite a s <;> simp [e]
  rw [hrea, add_zero]
  unfold Network.siteCols
  rw [List.map_append, List.sum_append, hsites, hads, add_comm]

/-- On every site type the derivatives of its adsorbates and the change of its free sites implied
by the reactions cancel. -/
theorem C27_sites_partial (o : MFOwner K) (total P C : Str → K) (h : Ready o total P C)
    (hc : ∀ states ∈ o.net.rxns, RateClean states) (v : Str → K) (kf kr : List K) (κf κr : Str → K)
    (hkf : KOk o.rxns kf κf) (hkr : KOk o.rxns kr κr)
    (hone : ∀ a ∈ o.net.ads, ∀ states ∈ o.net.rxns, OneSided a states)
    (hn : ∀ a ∈ o.net.ads, ∀ f, chemFormula a = .ok f → f.nsite = 1) :
    ∃ net derivs, getNetRates o (kf, kr) (o.net.ads.map v) = .ok net ∧
      steadyStateFunction o (kf, kr) (o.net.ads.map v) = .ok derivs ∧
      ∀ s ∈ o.net.sites,
        (((o.net.ads.zip derivs).filter fun x => OnSite x.1 s).map (·.2)).sum + production o.net net s = 0 := by
  obtain ⟨net, h1, h2, h3⟩ := C26_derivatives_partial o total P C h hc v kf kr κf κr hkf hkr hone
  refine ⟨net, _, h1, h3, ?_⟩
  intro s hs
  have hfil : ∀ l : List Str, (((l.zip (l.map (production o.net net))).filter fun x => OnSite x.1 s).map (·.2))
      = (l.filter fun a => OnSite a s).map (production o.net net) := by
    intro l
    induction l with
    | nil => rfl
    | cons a l ih =>
      by_cases ha : OnSite a s <;> simp [ha, ih]
  rw [hfil]
  obtain ⟨g, -, hg1, hg2, hsg, -⟩ := nameCount_site h.parse hs
  have hsum : (o.net.siteCols.map fun x => production o.net net x * (nameSites g.site x : K)).sum
      + (o.net.reaproCols.map fun x => production o.net net x * (nameSites g.site x : K)).sum = 0 := by
    unfold production
    rw [production_swap, production_swap]
    have hb := fun st hst => site_balance (K := K) h.parse (st := st) hst (hc st hst).1 g.site
    generalize o.net.rxns = rs at hb
    clear h1 h2 h3 hfil
    induction rs generalizing net with
    | nil => simp
    | cons st rs ih =>
      cases net with
      | nil => simp
      | cons r net =>
        have i1 := ih net fun s hs => hb s (by simp [hs])
        have i2 := hb st (by simp)
        simp only [List.zipWith_cons_cons, List.sum_cons]
        linear_combination i1 + r * i2
  rw [← site_weights h.parse hn hs hg1 hg2 hsg]
  exact hsum

/-- CO oxidation meets the hypotheses. -/
example : ∀ a ∈ exMF.net.ads, ∀ f, chemFormula a = .ok f → f.nsite = 1 := by
  have : ∀ a ∈ exMF.net.ads, (match chemFormula a with | .ok f => decide (f.nsite = 1) | .error _ => true) = true := by
    decide
  intro a ha f hf
  have := this a ha
  rw [hf] at this
  simpa using this

/-- With a bridging adsorbate, which occupies two sites, the free sites of the coverage dictionary
do not follow the reactions: the equation of `O2_2s` changes by the net rate, the free sites by
minus twice the rate. -/
theorem C27_bridge_refuted :
    let rxns := [str! "O2_g + 2*_s -> O2_2s"]
    let n := netOf rxns
    let o : MFOwner ℚ := ⟨rxns, n, [(str! "*_s", 1)], [(str! "O2_g", 1)], []⟩
    parseNetwork rxns = .ok n ∧ getNetRates o ([1], [0]) [0] = .ok [1] ∧
      steadyStateFunction o ([1], [0]) [0] = .ok [1] ∧ production n [1] (str! "*_s") = (-2 : ℚ) := by
  refine ⟨?_, ?_, ?_, ?_⟩
  · decide
  all_goals decide +kernel

/-! ## C18 equilibrium -/

/-- With energies from absolute energies, activities proportional to `exp (-G / kB T)` with a
common factor on both sides of each reaction make forward and reverse rates equal and all
coverages stationary. -/
theorem C18_equilibrium_partial (o : MFOwner ℝ) (total P C : Str → ℝ) (h : Ready o total P C)
    (hc : ∀ states ∈ o.net.rxns, RateClean states) (v : Str → ℝ) (ro : RateOwner) (hro : ro.rxns = o.rxns)
    (hT : 0 < ro.T) (E : Dict Str ℝ) (G : Str → ℝ) (hG : Extends G E) (r : Rel ℝ)
    (hr : relativeFromAbsolute (some E) o.rxns = .ok r)
    (hact : ∀ states ∈ o.net.rxns, ∀ is fs, states.head? = some is → states.getLast? = some fs →
      ∃ c : ℝ, stateActivity P C (coverage o.net total v) is = c * Real.exp (-specEnergy G is / (kBeV * ro.T)) ∧
        stateActivity P C (coverage o.net total v) fs = c * Real.exp (-specEnergy G fs / (kBeV * ro.T))) :
    ∃ kf kr rfs, rateConstants ro .TST ⟨some r.gaf, some r.gar, some r.dg⟩ = .ok (kf, kr) ∧
      getRates o (kf, kr) (o.net.ads.map v) = .ok (rfs, rfs) ∧
      steadyStateFunction o (kf, kr) (o.net.ads.map v) = .ok (o.net.ads.map fun _ => 0) := by
  have hkB := kBeV_pos
  have hhe := heV_pos
  have single : ∀ rxn ∈ ro.rxns, ∃ y w, ratesTST ro ⟨some r.gaf, some r.gar, some r.dg⟩ false rxn = .ok y ∧
      singleRelative E rxn = .ok w ∧ y.1 / y.2 = Real.exp (-w.dg / (kBeV * ro.T)) ∧ y.2 ≠ 0 := by
    intro rxn hx
    rw [← hro] at hr
    obtain ⟨w, kf, kr, hw, hrate, hq⟩ := C17_from_absolute_energies E ro r hT hr rxn hx
    refine ⟨(kf, kr), w, hrate, hw, hq, ?_⟩
    obtain ⟨u, -, -, h2⟩ := ratesTST_ok.mp hrate
    rw [(kTST_ok hT.ne').mp h2]
    positivity
  obtain ⟨l, hl⟩ := mapM_ok_exists (f := ratesTST ro ⟨some r.gaf, some r.gar, some r.dg⟩ false)
    (l := ro.rxns) (fun x hx => by obtain ⟨y, -, hy, -⟩ := single x hx; exact ⟨y, hy⟩)
  have hk : rateConstants ro .TST ⟨some r.gaf, some r.gar, some r.dg⟩ = .ok (l.map (·.1), l.map (·.2)) := by
    unfold rateConstants
    rw [if_neg (by simp)]
    simp only [hl]
    rfl
  obtain ⟨m1, m2⟩ := mapM_ok_inv hl
  obtain ⟨-, -, κf, κr, hκf, hκr⟩ := kOk_rateConstants hk
  have hκ : ∀ i (hi : i < ro.rxns.length), κf ro.rxns[i] = (l[i]'(by omega)).1 ∧ κr ro.rxns[i] = (l[i]'(by omega)).2 := by
    intro i hi
    have a := hκf.get i hi
    have b := hκr.get i hi
    simp only [List.getElem?_map, List.getElem?_eq_getElem (show i < l.length by omega), Option.map_some,
      Option.some.injEq] at a b
    exact ⟨a.symm, b.symm⟩
  rw [hro] at hκf hκr
  obtain ⟨rfs, rrs, h1, h2, h3, h4⟩ := getRates_ok h hc v _ _ κf κr hκf hκr
  have heq : rfs = rrs := by
    apply List.ext_getElem (by omega)
    intro i i1 i2
    have hi : i < o.rxns.length := by omega
    obtain ⟨st, is, fs, e1, e2, e3, e4, e5, -⟩ := states_ok h.parse hi
    obtain ⟨q1, q2⟩ := h4 i hi st is fs e1 e4 e5
    rw [List.getElem?_eq_getElem i1] at q1
    rw [List.getElem?_eq_getElem i2] at q2
    rw [Option.some.inj q1, Option.some.inj q2]
    obtain ⟨c, c1, c2⟩ := hact st (List.mem_of_getElem? e2) is fs e4 e5
    rw [c1, c2]
    obtain ⟨y, w, hy, hw, hq, hne⟩ := single o.rxns[i] (by rw [hro]; exact List.getElem_mem _)
    have hi' : i < ro.rxns.length := by rw [hro]; exact hi
    have hl' := m2 i hi' (by omega)
    have hxx : ro.rxns[i] = o.rxns[i] := by congr 1
    rw [hxx, hy] at hl'
    obtain ⟨k1, k2⟩ := hκ i hi'
    rw [hxx, ← Except.ok.inj hl'] at k1 k2
    rw [k1, k2]
    obtain ⟨st', is', fs', f1, f2, f3, -, f5, -⟩ := C12_single_reaction E G hG _ _ hw
    rw [e1] at f1; cases f1
    rw [e4] at f2; cases f2
    rw [e5] at f3; cases f3
    have hy1 : y.1 = y.2 * Real.exp (-w.dg / (kBeV * ro.T)) := by
      rw [← hq]; field_simp
    rw [hy1, f5]
    have : Real.exp (-specEnergy G fs / (kBeV * ro.T)) =
        Real.exp (-(specEnergy G fs - specEnergy G is) / (kBeV * ro.T)) * Real.exp (-specEnergy G is / (kBeV * ro.T)) := by
      rw [← Real.exp_add]; congr 1; ring
    rw [this]; ring
  subst heq
  refine ⟨_, _, rfs, hk, h1, ?_⟩
  obtain ⟨net, n1, n2, n3⟩ := steady_ok o total P C h hc v _ _ κf κr hκf hκr
  rw [n3]
  have hnet : net = List.replicate rfs.length 0 := by
    unfold getNetRates at n1
    rw [h1] at n1
    have := Except.ok.inj n1
    rw [← this]
    apply List.ext_getElem
    · simp
    · intro i a b; simp
  congr 1
  apply List.map_congr_left
  intro a _
  rw [hnet]
  have : ∀ (rs : List (List (List Formula))) (m : Nat),
      (List.zipWith (fun states r => (codeCoef a states : ℝ) * r) rs (List.replicate m 0)).sum = 0 := by
    intro rs
    induction rs with
    | nil => intro m; simp
    | cons st rs ih =>
      intro m
      cases m with
      | zero => simp
      | succ m => rw [List.replicate_succ, List.zipWith_cons_cons, List.sum_cons, ih m]; simp
  exact this _ _

/-- Langmuir adsorption of CO with binding energy 1 at any temperature: the hypotheses are met by
the Langmuir isotherm. -/
example (T : ℝ) (hT : 0 < T) :
    let rxns := [str! "CO_g + *_s -> CO_s"]
    let n := netOf rxns
    let o : MFOwner ℝ := ⟨rxns, n, [(str! "*_s", 1)], [(str! "CO_g", 2)], []⟩
    let E : Dict Str ℝ := [(str! "CO_g", 0), (str! "*_s", 0), (str! "CO_s", -1)]
    let w := 2 * Real.exp (1 / (kBeV * T))
    ∃ r kf kr rfs, relativeFromAbsolute (some E) rxns = .ok r ∧
      rateConstants ⟨rxns, T, [], 0, 0, false⟩ .TST ⟨some r.gaf, some r.gar, some r.dg⟩ = .ok (kf, kr) ∧
      getRates o (kf, kr) [w / (1 + w)] = .ok (rfs, rfs) ∧
      steadyStateFunction o (kf, kr) [w / (1 + w)] = .ok [0] := by
  intro rxns n o E w
  have hw : 0 < w := by positivity
  have hn : parseNetwork rxns = .ok n := by decide
  have hready : Ready o (fun _ => 1) (fun _ => 2) (fun _ => 0) := by
    refine ⟨hn, ?_, ?_, ?_⟩
    · intro s hs
      have : s = str! "*_s" := by
        have : n.sites = [str! "*_s"] := by decide
        rw [show o.net = n from rfl, this] at hs; simpa using hs
      subst this; rfl
    · intro s hs
      have : s = str! "CO_g" := by
        have : n.gas = [str! "CO_g"] := by decide
        rw [show o.net = n from rfl, this] at hs; simpa using hs
      subst this; rfl
    · intro s hs
      have : n.liq = [] := by decide
      rw [show o.net = n from rfl, this] at hs; simp at hs
  have hclean : ∀ states ∈ o.net.rxns, RateClean states := fun st hst =>
    rateClean_of ((by decide : ∀ st ∈ (netOf [str! "CO_g + *_s -> CO_s"]).rxns, rateCleanB st = true) st hst)
  let G : Str → ℝ := fun x => if x = str! "CO_s" then -1 else 0
  have hG : Extends G E := by
    intro k v hv
    simp only [E, get?] at hv
    split at hv
    · rename_i e; subst e; simp at hv; simp [G, ← hv]
    · split at hv
      · rename_i e; subst e; simp at hv; simp [G, ← hv]
      · split at hv
        · rename_i e; subst e; simp at hv; simp [G, ← hv]
        · simp at hv
  obtain ⟨r, hr⟩ := (C12_complete_tables E rxns n hn).1 (by decide)
  have hads : n.ads = [str! "CO_s"] := by decide
  have hrxns : n.rxns = [[[⟨str! "CO_g", 1, str! "CO", 1, str! "g", str! "CO_g"⟩, ⟨str! "*_s", 1, str! "*", 1, str! "s", str! "*_s"⟩],
      [⟨str! "CO_s", 1, str! "CO", 1, str! "s", str! "CO_s"⟩]]] := by decide
  have hc1 : coverage n (fun _ => (1 : ℝ)) (fun _ => w / (1 + w)) (str! "CO_s") = w / (1 + w) := by
    unfold coverage
    rw [hads, if_pos (by simp)]
  have hc2 : coverage n (fun _ => (1 : ℝ)) (fun _ => w / (1 + w)) (str! "*_s") = 1 / (1 + w) := by
    unfold coverage
    rw [hads, if_neg (by decide)]
    rw [show List.filter (fun a => decide (OnSite a (str! "*_s"))) [str! "CO_s"] = [str! "CO_s"] by decide]
    simp only [List.map_cons, List.map_nil, List.sum_cons, List.sum_nil]
    field_simp
    ring
  obtain ⟨kf, kr, rfs, h1, h2, h3⟩ := C18_equilibrium_partial o (fun _ => 1) (fun _ => 2) (fun _ => 0) hready hclean
    (fun _ => w / (1 + w)) ⟨rxns, T, [], 0, 0, false⟩ rfl hT E G hG r hr (by
      intro states hst is fs hi hf
      rw [show o.net = n from rfl, hrxns, List.mem_singleton] at hst
      subst hst
      simp only [List.head?_cons, Option.some.injEq] at hi
      simp only [List.getLast?_cons_cons, List.getLast?_singleton, Option.some.injEq] at hf
      subst hi hf
      refine ⟨2 / (1 + w), ?_, ?_⟩
      · have hs1 : specKind (str! "CO") (str! "g") = .gas := by decide
        have hs2 : specKind (str! "*") (str! "s") = .empty := by decide
        simp only [stateActivity, specAct, List.map_cons, List.map_nil, List.prod_cons, List.prod_nil, hs1, hs2,
          pow_one, show o.net = n from rfl, hc2]
        simp only [specEnergy, List.map_cons, List.map_nil, List.sum_cons, List.sum_nil]
        have g1 : G (str! "CO_g") = 0 := by simp [G]
        have g2 : G (str! "*_s") = 0 := by simp [G]
        simp [g1, g2]
        ring
      · have hs1 : specKind (str! "CO") (str! "s") = .ads := by decide
        simp only [stateActivity, specAct, List.map_cons, List.map_nil, List.prod_cons, List.prod_nil, hs1,
          pow_one, show o.net = n from rfl, hc1]
        simp only [specEnergy, List.map_cons, List.map_nil, List.sum_cons, List.sum_nil]
        have g1 : G (str! "CO_s") = -1 := by simp [G]
        simp [g1]
        simp only [w]
        ring_nf)
  refine ⟨r, kf, kr, rfs, hr, h1, ?_, ?_⟩
  · simpa [show o.net = n from rfl, hads] using h2
  · simpa [show o.net = n from rfl, hads] using h3

/-! ## C61 reversibilities -/

theorem C61_reversibilities {K : Type} [Field K] [LinearOrder K] [IsStrictOrderedRing K] (rfs rrs : List K)
    (hlen : rfs.length = rrs.length) (hpos : ∀ r ∈ rfs, 0 < r) :
    ∃ l, reversibilities rfs rrs = .ok l ∧ l.length = rfs.length ∧
      ∀ (i : Nat) (rf rr : K), rfs[i]? = some rf → rrs[i]? = some rr →
        ∃ x, l[i]? = some x ∧ x = rr / rf ∧ (x = 1 ↔ rf - rr = 0) ∧ (x < 1 ↔ 0 < rf - rr) ∧ (1 < x ↔ rf - rr < 0) := by
  have hm : reversibilities rfs rrs = .ok ((rfs.zip rrs).map fun x => x.2 / x.1) := by
    unfold reversibilities
    rw [if_neg (by simpa using hlen)]
    apply mapM_ok_map
    rintro ⟨a, b⟩ hx
    rw [if_neg (hpos a (List.of_mem_zip hx).1).ne']
  refine ⟨_, hm, by simp [hlen], ?_⟩
  intro i rf rr h1 h2
  have h0 : 0 < rf := hpos rf (List.mem_of_getElem? h1)
  refine ⟨rr / rf, ?_, rfl, ?_, ?_, ?_⟩
  · rw [List.getElem?_map, (List.getElem?_zip_eq_some (z := (rf, rr))).mpr ⟨h1, h2⟩]; rfl
  · rw [div_eq_one_iff_eq h0.ne', sub_eq_zero, eq_comm]
  · rw [div_lt_one h0, sub_pos]
  · rw [one_lt_div h0, sub_neg]

theorem C61_length_mismatch {K : Type} [Field K] [DecidableEq K] (rfs rrs : List K)
    (h : rfs.length ≠ rrs.length) : reversibilities rfs rrs = .error .ValueError := by
  unfold reversibilities; rw [if_pos h]

example : reversibilities [2, 4] [1, (4 : ℚ)] = .ok [1 / 2, 1] := by decide +kernel

/-! ## C62 Boltzmann coverages -/

theorem boltzmannWeight_ok {E : Dict Str ℝ} {G : Str → ℝ} {T : ℝ} (hT : 0 < T) {x : Str}
    (hx : get? E x = some (G x)) : boltzmannWeight E T x = .ok (Real.exp (-G x / (kBeV * T))) := by
  unfold boltzmannWeight
  rw [dictGet_ok.mpr hx]
  have := kBeV_pos
  simp only [bind, Except.bind]
  rw [if_neg (by positivity)]
  rfl

theorem sum_exp_pos {l : List Str} (hl : l ≠ []) (f : Str → ℝ) : 0 < (l.map fun x => Real.exp (f x)).sum := by
  induction l with
  | nil => exact absurd rfl hl
  | cons a l ih =>
    rw [List.map_cons, List.sum_cons]
    rcases eq_or_ne l [] with e | e
    · subst e; simpa using Real.exp_pos _
    · have := ih e; have := Real.exp_pos (f a); linarith

/-- The coverages are positive, ordered against the energies, add to one without empty sites, and
with empty sites the missing part is exactly the weight of the sites. -/
theorem C62_distribution (n : Network) (E : Dict Str ℝ) (G : Str → ℝ) (T : ℝ) (hT : 0 < T) (hne : n.ads ≠ [])
    (hE : ∀ x ∈ n.ads ++ n.sites, get? E x = some (G x)) :
    ∃ without with_ : Str → ℝ,
      boltzmannCoverages n (some E) T false = .ok (n.ads.map without) ∧
      boltzmannCoverages n (some E) T true = .ok (n.ads.map with_) ∧
      (∀ a, 0 < without a ∧ 0 < with_ a) ∧
      (∀ a b, G a < G b → without b < without a ∧ with_ b < with_ a) ∧
      (n.ads.map without).sum = 1 ∧
      (n.ads.map with_).sum + (n.sites.map with_).sum = 1 ∧
      (n.sites ≠ [] → (n.ads.map with_).sum < 1) := by
  have hkB := kBeV_pos
  have hw : ∀ l : List Str, (∀ x ∈ l, x ∈ n.ads ++ n.sites) →
      l.mapM (boltzmannWeight E T) = .ok (l.map fun x => Real.exp (-G x / (kBeV * T))) := by
    intro l hl
    apply mapM_ok_map
    intro x hx
    exact boltzmannWeight_ok hT (hE x (hl x hx))
  have z1 : 0 < (n.ads.map fun x => Real.exp (-G x / (kBeV * T))).sum := sum_exp_pos hne _
  have z2 : 0 < ((n.ads ++ n.sites).map fun x => Real.exp (-G x / (kBeV * T))).sum :=
    sum_exp_pos (by simp [hne]) _
  have hdiv : ∀ (l : List Str) (f : Str → ℝ) (c : ℝ), (l.map fun x => f x / c).sum = (l.map f).sum / c := by
    intro l f c
    simp only [div_eq_inv_mul]
    exact sum_map_mul_left' l _ f
  refine ⟨fun x => Real.exp (-G x / (kBeV * T)) / (n.ads.map fun x => Real.exp (-G x / (kBeV * T))).sum,
    fun x => Real.exp (-G x / (kBeV * T)) / ((n.ads ++ n.sites).map fun x => Real.exp (-G x / (kBeV * T))).sum,
    ?_, ?_, ?_, ?_, ?_, ?_, ?_⟩
  · simp only [boltzmannCoverages, Bool.false_eq_true, if_false]
    rw [hw n.ads (by intro x hx; simp [hx])]
    simp only [bind, Except.bind, pure, Except.pure, List.map_map]
    rfl
  · simp only [boltzmannCoverages, if_true]
    rw [hw n.ads (by intro x hx; simp [hx]), hw (n.ads ++ n.sites) (fun x hx => hx)]
    simp only [bind, Except.bind, pure, Except.pure, List.map_map]
    rfl
  · intro a; exact ⟨by positivity, by positivity⟩
  · intro a b hab
    have : Real.exp (-G b / (kBeV * T)) < Real.exp (-G a / (kBeV * T)) := by
      rw [Real.exp_lt_exp]
      apply (div_lt_div_iff_of_pos_right (by positivity)).mpr
      linarith
    exact ⟨(div_lt_div_iff_of_pos_right z1).mpr this, (div_lt_div_iff_of_pos_right z2).mpr this⟩
  · rw [hdiv]; exact div_self z1.ne'
  · rw [hdiv, hdiv, ← add_div, ← List.sum_append, ← List.map_append]; exact div_self z2.ne'
  · intro hs
    rw [hdiv, div_lt_one z2, List.map_append, List.sum_append]
    have := sum_exp_pos hs fun x => -G x / (kBeV * T)
    linarith

/-- Without absolute energies there are no Boltzmann coverages. -/
theorem C62_needs_energies (n : Network) (T : ℝ) (b : Bool) : boltzmannCoverages n none T b = .error .IOError := rfl

example : exNet.ads ≠ [] ∧ exNet.sites ≠ [] ∧ ∀ x ∈ exNet.ads ++ exNet.sites,
    get? ([(str! "CO_s", -1), (str! "O_s", -2), (str! "*_s", 0)] : Dict Str Int) x
      = some (if x = str! "CO_s" then -1 else if x = str! "O_s" then -2 else 0) := by decide

/-! ### The theorems at these cases -/

example := C23_conversion exMF _ _ _ exMF_ready [1 / 2, 1 / 5] rfl

example := C23_one_site exRxns exNet exNet_ok (str! "CO_s") (by decide)

example := C23_short_tuple exMF exMF_ready.parse [1 / 2] (by decide)

example := C25_mass_action_partial exMF _ _ _ exMF_ready exMF_clean (fun _ => 1 / 4) [2, 3, 5] [7, 11, 13] (by decide) rfl rfl

example := C69_turnover exMF ([4, 8, 16], [0, 0, 0]) [1 / 4, 1 / 4] [1, 1 / 2, 1] exMF_ready.parse (by decide +kernel) rfl

example (e : Char) := C11_element_balance_partial exMF ([4, 8, 16], [0, 0, 0]) [1 / 4, 1 / 4] [1, 1 / 2, 1] [1, -1, -1 / 2] exMF_ready.parse
  (fun st hst => (exMF_clean st hst).1.1) (by decide +kernel) rfl (by decide +kernel) (by decide +kernel) e

example := (kOk_nodup (K := ℚ) (rxns := exMF.rxns) (by decide) (k := [4, 8, 16]) rfl).elim fun κf hf =>
  (kOk_nodup (K := ℚ) (rxns := exMF.rxns) (by decide) (k := [0, 0, 0]) rfl).elim fun κr hr =>
    C11_at_steady_state_partial exMF _ _ _ exMF_ready exMF_clean (fun _ => 1 / 4) _ _ κf κr hf hr exMF_oneSided 2 (by decide +kernel)

example := C61_reversibilities [2, 4] [1, (4 : ℚ)] rfl (by decide +kernel)

example := C61_length_mismatch [2, 4] [(1 : ℚ)] (by decide)

example := C62_distribution exNet [(str! "CO_s", -1), (str! "O_s", -2), (str! "*_s", 0)] (fun x => if x = str! "CO_s" then -1 else if x = str! "O_s" then -2 else 0)
  450 (by norm_num) (by decide) (by
    intro x hx
    have : x ∈ [str! "CO_s", str! "O_s", str! "*_s"] := hx
    simp only [List.mem_cons, List.not_mem_nil, or_false] at this
    rcases this with rfl | rfl | rfl
    · rfl
    · exact congrArg some (by rw [if_neg (by decide), if_pos rfl])
    · rfl)

end Verif
