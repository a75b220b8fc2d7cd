import Verif.Props.Flow
import Verif.Props.Constrain
import Verif.Props.SteadyLoop
import Verif.Props.Rounding
import Verif.Props.Fills
import Mathlib.Topology.MetricSpace.Thickening
import Mathlib.Topology.MetricSpace.ProperSpace
/-
C132: a small residual means that a steady state is near.
-/
namespace Verif
open Dict
set_option linter.unusedSectionVars false

/-! ### specification -/

/-- No coverage is negative and no site is over-full. -/
def PhysicalCoverages (o : MFOwner ℝ) (total v : Str → ℝ) : Prop :=
  (∀ a ∈ o.net.ads, 0 ≤ v a) ∧ ∀ s ∈ o.net.sites, ((o.net.ads.filter fun a => OnSite a s).map v).sum ≤ total s

/-- Physical coverages at which nothing changes. -/
def PhysicalSteady (o : MFOwner ℝ) (total : Str → ℝ) (k : List ℝ × List ℝ) (v : Str → ℝ) : Prop :=
  PhysicalCoverages o total v ∧ steadyStateFunction o k (o.net.ads.map v) = .ok (List.replicate o.net.ads.length 0)

/-! ### the right hand sides as functions of the coverages -/

/-- The right hand side of an adsorbate as the code computes it. -/
noncomputable def codeFlow (o : MFOwner ℝ) (P C κf κr θ : Str → ℝ) (a : Str) : ℝ :=
  (List.zipWith (fun rxn states => (codeCoef a states : ℝ) * (rateOf P C θ (κf rxn) states.head? - rateOf P C θ (κr rxn) states.getLast?))
    o.rxns o.net.rxns).sum

theorem steady_codeFlow {o : MFOwner ℝ} {total P C : Str → ℝ} (h : Ready o total P C)
    (hc : ∀ states ∈ o.net.rxns, RateClean states) (v : Str → ℝ) {kf kr : List ℝ} {κf κr : Str → ℝ}
    (hkf : KOk o.rxns kf κf) (hkr : KOk o.rxns kr κr) :
    steadyStateFunction o (kf, kr) (o.net.ads.map v) = .ok (o.net.ads.map (codeFlow o P C κf κr (coverage o.net total v))) := by
  obtain ⟨net, h1, h2, h3⟩ := steady_ok o total P C h hc v kf kr κf κr hkf hkr
  obtain ⟨rfs, rrs, g1, g2, g3, g4⟩ := getRates_ok h hc v kf kr κf κr hkf hkr
  have hl := length_rxns h.parse
  have hnet : net = List.zipWith (· - ·) rfs rrs := by
    unfold getNetRates at h1
    rw [g1] at h1
    exact (Except.ok.inj h1).symm
  rw [h3]
  congr 1
  apply List.map_congr_left
  intro a _
  unfold codeFlow
  congr 1
  apply List.ext_getElem
  · simp [h2, hl]
  · intro i i1 i2
    have i3 : i < o.rxns.length := by simp [hl] at i2; exact i2
    obtain ⟨st, is, fs, e1, e2, -, e4, e5, -⟩ := states_ok h.parse i3
    obtain ⟨a1, a2⟩ := g4 i i3 st is fs e1 e4 e5
    have e2' : o.net.rxns[i]'(by omega) = st := by
      rw [List.getElem?_eq_getElem (by omega)] at e2
      exact Option.some.inj e2
    rw [List.getElem?_eq_getElem (by omega)] at a1 a2
    simp only [List.getElem_zipWith, hnet, e2', e4, e5, rateOf, Option.some.inj a1, Option.some.inj a2]

theorem codeFlow_continuous (o : MFOwner ℝ) (total P C κf κr : Str → ℝ) (a : Str) :
    Continuous fun y => codeFlow o P C κf κr (coverage o.net total (extend o.net.ads y)) a := by
  have hsum : ∀ l : List Str, Continuous fun y => (l.map (extend o.net.ads y)).sum := by
    intro l
    induction l with
    | nil => simpa using continuous_const
    | cons x l ih =>
      simp only [List.map_cons, List.sum_cons]
      exact (extend_contDiff o.net.ads x).continuous.add ih
  have hcov : ∀ x, Continuous fun y => coverage o.net total (extend o.net.ads y) x := by
    intro x
    unfold coverage
    split
    · exact (extend_contDiff o.net.ads x).continuous
    · exact continuous_const.sub (hsum _)
  have hact : ∀ fs, Continuous fun y => stateActivity P C (coverage o.net total (extend o.net.ads y)) fs := by
    intro fs
    unfold stateActivity
    induction fs with
    | nil => simpa using continuous_const
    | cons f fs ih =>
      simp only [List.map_cons, List.prod_cons]
      refine Continuous.mul (Continuous.pow ?_ _) ih
      unfold specAct
      cases specKind f.species f.site with
      | gas => exact continuous_const
      | liquid => exact continuous_const
      | ts => exact hcov _
      | ads => exact hcov _
      | empty => exact hcov _
  have hrate : ∀ k st, Continuous fun y => rateOf P C (coverage o.net total (extend o.net.ads y)) k st := by
    intro k st
    unfold rateOf
    cases st with
    | none => exact continuous_const
    | some fs => exact continuous_const.mul (hact fs)
  unfold codeFlow
  generalize o.net.rxns = rs
  generalize o.rxns = ts
  induction ts generalizing rs with
  | nil => simpa using continuous_const
  | cons t ts ih =>
    cases rs with
    | nil => simpa using continuous_const
    | cons st rs =>
      simp only [List.zipWith_cons_cons, List.sum_cons]
      exact (continuous_const.mul ((hrate _ _).sub (hrate _ _))).add (ih rs)

theorem extend_self {cols : List Str} (v : Str → ℝ) {a : Str} (ha : a ∈ cols) : extend cols (fun i => v i.1) a = v a := by
  unfold extend
  rw [dif_pos ha]

theorem kOk_of_nodup {rxns : List Str} {k : List ℝ} (hnd : rxns.Nodup) (hl : k.length = rxns.length) : ∃ κ, KOk rxns k κ := by
  refine ⟨fun x => k.getD (rxns.idxOf x) 0, ⟨fun i hi => ?_⟩⟩
  rw [hnd.idxOf_getElem i hi, List.getD_eq_getElem?_getD, List.getElem?_eq_getElem (by omega)]
  rfl

/-! ### close to a steady state -/

/-- The same for coverages bounded by any numbers, which need not be those of the sites. -/
theorem close_bounded (o : MFOwner ℝ) (total P C : Str → ℝ) (h : Ready o total P C) (hc : ∀ states ∈ o.net.rxns, RateClean states)
    (kf kr : List ℝ) (hnd : o.rxns.Nodup) (hlf : kf.length = o.rxns.length) (hlr : kr.length = o.rxns.length) (ε : ℝ) (hε : 0 < ε) (big : Str → ℝ) :
    ∃ δ, 0 < δ ∧ ∀ (v : Str → ℝ) (r : ℝ), PhysicalCoverages o big v → getResidual o (kf, kr) (o.net.ads.map v) = .ok r → r ≤ δ →
      ∃ w, PhysicalSteady o big (kf, kr) w ∧ ∀ a ∈ o.net.ads, |v a - w a| ≤ ε := by
  obtain ⟨κf, hκf⟩ := kOk_of_nodup hnd hlf
  obtain ⟨κr, hκr⟩ := kOk_of_nodup hnd hlr
  let ads := o.net.ads
  let F : Str → ({a // a ∈ ads} → ℝ) → ℝ := fun a y => codeFlow o P C κf κr (coverage o.net total (extend ads y)) a
  have hF : ∀ a, Continuous (F a) := codeFlow_continuous o total P C κf κr
  have hext : ∀ (v : Str → ℝ), o.net.ads.map v = o.net.ads.map (extend ads fun i => v i.1) := by
    intro v
    apply List.map_congr_left
    intro a ha
    exact (extend_self v ha).symm
  have hphys : ∀ v : Str → ℝ, PhysicalCoverages o big v ↔ PhysicalCoverages o big (extend ads fun i => v i.1) := by
    intro v
    have e : ∀ s, ((o.net.ads.filter fun a => OnSite a s).map (extend ads fun i => v i.1)) = (o.net.ads.filter fun a => OnSite a s).map v := by
      intro s
      apply List.map_congr_left
      intro a ha
      exact extend_self v (List.mem_filter.mp ha).1
    unfold PhysicalCoverages
    simp only [e]
    constructor
    · rintro ⟨p1, p2⟩
      exact ⟨fun a ha => by rw [extend_self v ha]; exact p1 a ha, p2⟩
    · rintro ⟨p1, p2⟩
      exact ⟨fun a ha => by have := p1 a ha; rwa [extend_self v ha] at this, p2⟩
  let K : Set ({a // a ∈ ads} → ℝ) := {y | PhysicalCoverages o big (extend ads y)}
  let Z : Set ({a // a ∈ ads} → ℝ) := {y | y ∈ K ∧ ∀ a ∈ ads, F a y = 0}
  have hsum : ∀ l : List Str, Continuous fun y : {a // a ∈ ads} → ℝ => (l.map (extend ads y)).sum := by
    intro l
    induction l with
    | nil => simpa using continuous_const
    | cons x l ih =>
      simp only [List.map_cons, List.sum_cons]
      exact (extend_contDiff ads x).continuous.add ih
  have hKc : IsClosed K := by
    rw [show K = (⋂ a, ⋂ _ : a ∈ o.net.ads, {y | 0 ≤ extend ads y a}) ∩ ⋂ s, ⋂ _ : s ∈ o.net.sites,
        {y | ((o.net.ads.filter fun a => OnSite a s).map (extend ads y)).sum ≤ big s} by
      ext y
      simp only [K, PhysicalCoverages, Set.mem_ofPred_eq, Set.mem_inter_iff, Set.mem_iInter]]
    exact (isClosed_iInter fun a => isClosed_iInter fun _ => isClosed_le continuous_const (extend_contDiff ads a).continuous).inter
      (isClosed_iInter fun s => isClosed_iInter fun _ => isClosed_le (hsum _) continuous_const)
  have hKb : IsCompact K := by
    have hσ : ∀ i : {a // a ∈ ads}, ∃ s ∈ o.net.sites, OnSite i.1 s := fun i => ads_onSite h.parse i.2
    choose σ hσ1 hσ2 using hσ
    apply IsCompact.of_isClosed_subset (isCompact_univ_pi fun i : {a // a ∈ ads} => isCompact_Icc (a := (0 : ℝ)) (b := big (σ i))) hKc
    rintro y ⟨p1, p2⟩ i -
    have e : extend ads y i.1 = y i := by
      unfold extend
      rw [dif_pos i.2]
    have q1 := p1 i.1 i.2
    refine ⟨by rwa [e] at q1, ?_⟩
    have q2 := p2 (σ i) (hσ1 i)
    have q3 : extend ads y i.1 ≤ ((o.net.ads.filter fun a => OnSite a (σ i)).map (extend ads y)).sum := by
      refine List.single_le_sum ?_ _ (List.mem_map_of_mem (List.mem_filter.mpr ⟨i.2, by simpa using hσ2 i⟩))
      intro x hx
      obtain ⟨a, ha, rfl⟩ := List.mem_map.mp hx
      exact p1 a (List.mem_filter.mp ha).1
    rw [e] at q3
    exact q3.trans q2
  have hD : IsCompact (K \ Metric.thickening ε Z) := hKb.diff Metric.isOpen_thickening
  let G : ({a // a ∈ ads} → ℝ) → ℝ := fun y => (ads.map fun a => |F a y|).sum
  have hG : Continuous G := by
    show Continuous fun y => (ads.map fun a => |F a y|).sum
    suffices hl : ∀ l : List Str, Continuous fun y => (l.map fun a => |F a y|).sum from hl ads
    intro l
    induction l with
    | nil => simpa using continuous_const
    | cons x l ih =>
      simp only [List.map_cons, List.sum_cons]
      exact (hF x).abs.add ih
  have hG0 : ∀ y, 0 ≤ G y := by
    intro y
    refine List.sum_nonneg ?_
    simp only [List.mem_map, forall_exists_index, and_imp]
    rintro x a - rfl
    exact abs_nonneg _
  have hGz : ∀ y, G y = 0 → ∀ a ∈ ads, F a y = 0 := by
    intro y hy a ha
    have : |F a y| ≤ G y := by
      refine List.single_le_sum ?_ _ (List.mem_map_of_mem (f := fun a => |F a y|) ha)
      intro x hx
      obtain ⟨b, -, rfl⟩ := List.mem_map.mp hx
      exact abs_nonneg _
    rw [hy] at this
    exact abs_nonpos_iff.mp this
  -- away from the steady states the sum of all rates of change is bounded below
  obtain ⟨m, hm0, hm⟩ : ∃ m, 0 < m ∧ ∀ y ∈ K \ Metric.thickening ε Z, m ≤ G y := by
    rcases (K \ Metric.thickening ε Z).eq_empty_or_nonempty with e | hne
    · exact ⟨1, one_pos, fun y hy => by rw [e] at hy; exact absurd hy (Set.notMem_empty y)⟩
    · obtain ⟨y, hy, hmin⟩ := hD.exists_isMinOn hne hG.continuousOn
      refine ⟨G y, lt_of_le_of_ne (hG0 y) fun e => hy.2 ?_, fun z hz => hmin hz⟩
      exact Metric.self_subset_thickening hε Z ⟨hy.1, hGz y e.symm⟩
  refine ⟨m / (2 * (ads.length + 1)), by positivity, ?_⟩
  intro v r hv hr hle
  set y : {a // a ∈ ads} → ℝ := fun i => v i.1 with hy
  have hyK : y ∈ K := (hphys v).mp hv
  have hst := steady_codeFlow h hc (extend ads y) hκf hκr
  rw [← hext v] at hst
  have hall : ∀ a ∈ ads, |F a y| ≤ r := by
    intro a ha
    have hne : ads ≠ [] := List.ne_nil_of_mem ha
    obtain ⟨r', hr', -, hb, -⟩ := C30_residual o (kf, kr) _ _ hst (by simpa using hne)
    rw [hr] at hr'
    cases hr'
    exact hb _ (List.mem_map_of_mem ha)
  have hGle : G y < m := by
    have h1 : G y ≤ ads.length * r := by
      have := List.sum_le_card_nsmul (ads.map fun a => |F a y|) r (by
        intro x hx
        obtain ⟨a, ha, rfl⟩ := List.mem_map.mp hx
        exact hall a ha)
      simpa using this
    have h2 : (ads.length : ℝ) * r ≤ ads.length * (m / (2 * (ads.length + 1))) := mul_le_mul_of_nonneg_left hle (by positivity)
    have h3 : (ads.length : ℝ) * (m / (2 * (ads.length + 1))) < m := by
      rw [← mul_div_assoc, div_lt_iff₀ (by positivity)]
      have : (0 : ℝ) ≤ ads.length := by positivity
      nlinarith
    linarith
  have hyT : y ∈ Metric.thickening ε Z := by
    by_contra hn
    exact absurd (hm y ⟨hyK, hn⟩) (by linarith)
  obtain ⟨z, ⟨hzK, hz0⟩, hd⟩ := Metric.mem_thickening_iff.mp hyT
  refine ⟨extend ads z, ⟨hzK, ?_⟩, ?_⟩
  · rw [steady_codeFlow h hc (extend ads z) hκf hκr]
    congr 1
    rw [← List.map_const']
    apply List.map_congr_left
    intro a ha
    exact hz0 a ha
  · intro a ha
    have := dist_le_pi_dist y z ⟨a, ha⟩
    rw [Real.dist_eq] at this
    have e : extend ads z a = z ⟨a, ha⟩ := by
      unfold extend
      rw [dif_pos ha]
    rw [e]
    exact this.trans hd.le

/-- **C132** For every network, constants and distance there is a tolerance such that physical coverages with a residual
within it are within that distance of a physical steady state. -/
theorem C132_close (o : MFOwner ℝ) (total P C : Str → ℝ) (h : Ready o total P C) (hc : ∀ states ∈ o.net.rxns, RateClean states)
    (kf kr : List ℝ) (hnd : o.rxns.Nodup) (hlf : kf.length = o.rxns.length) (hlr : kr.length = o.rxns.length) (ε : ℝ) (hε : 0 < ε) :
    ∃ δ, 0 < δ ∧ ∀ (v : Str → ℝ) (r : ℝ), PhysicalCoverages o total v → getResidual o (kf, kr) (o.net.ads.map v) = .ok r → r ≤ δ →
      ∃ w, PhysicalSteady o total (kf, kr) w ∧ ∀ a ∈ o.net.ads, |v a - w a| ≤ ε :=
  close_bounded o total P C h hc kf kr hnd hlf hlr ε hε total

/-- **C132** So for every distance there is a tolerance such that physical coverages returned by a search with this tolerance,
whatever its iterator and its hybrid method, are within the distance of a physical steady state. -/
theorem C132_search (o : MFOwner ℝ) (total P C : Str → ℝ) (h : Ready o total P C) (hc : ∀ states ∈ o.net.rxns, RateClean states)
    (kf kr : List ℝ) (hnd : o.rxns.Nodup) (hlf : kf.length = o.rxns.length) (hlr : kr.length = o.rxns.length) (ε : ℝ) (hε : 0 < ε) :
    ∃ δ, 0 < δ ∧ ∀ (env : SolveEnv ℝ) (constrain : List ℝ → Py (List ℝ)) (n : Nat) (c0 : Option (List ℝ)) (st st' : SolveState ℝ) (v : Str → ℝ),
      env.resid = getResidual o (kf, kr) → env.tol ≤ δ → PhysicalCoverages o total v →
      getSteady env constrain n c0 st = some (st', .returned (o.net.ads.map v)) →
      ∃ w, PhysicalSteady o total (kf, kr) w ∧ ∀ a ∈ o.net.ads, |v a - w a| ≤ ε := by
  obtain ⟨δ, hδ, hall⟩ := C132_close o total P C h hc kf kr hnd hlf hlr ε hε
  refine ⟨δ, hδ, fun env constrain n c0 st st' v hres htol hph hs => ?_⟩
  obtain ⟨⟨r, hr, hle⟩, -⟩ := C31_residual env constrain n c0 st st' _ hs
  rw [hres] at hr
  exact hall v r hph hr (hle.trans htol)

/-- **C132** If there is only one physical steady state, small residuals are near it. -/
theorem C132_unique (o : MFOwner ℝ) (total P C : Str → ℝ) (h : Ready o total P C) (hc : ∀ states ∈ o.net.rxns, RateClean states)
    (kf kr : List ℝ) (hnd : o.rxns.Nodup) (hlf : kf.length = o.rxns.length) (hlr : kr.length = o.rxns.length)
    (w : Str → ℝ) (huniq : ∀ w', PhysicalSteady o total (kf, kr) w' → ∀ a ∈ o.net.ads, w' a = w a) (ε : ℝ) (hε : 0 < ε) :
    ∃ δ, 0 < δ ∧ ∀ (v : Str → ℝ) (r : ℝ), PhysicalCoverages o total v → getResidual o (kf, kr) (o.net.ads.map v) = .ok r → r ≤ δ →
      ∀ a ∈ o.net.ads, |v a - w a| ≤ ε := by
  obtain ⟨δ, hδ, hall⟩ := C132_close o total P C h hc kf kr hnd hlf hlr ε hε
  refine ⟨δ, hδ, fun v r hph hr hle a ha => ?_⟩
  obtain ⟨w', hw', hb⟩ := hall v r hph hr hle
  rw [← huniq w' hw' a ha]
  exact hb a ha

/-! ### how small it must be -/

theorem oneStep_rxns : (netOf oneStep).rxns =
    [[[⟨str! "CO_g", 1, str! "CO", 1, str! "g", str! "CO_g"⟩, ⟨str! "*_s", 1, str! "*", 1, str! "s", str! "*_s"⟩],
     [⟨str! "CO_s", 1, str! "CO", 1, str! "s", str! "CO_s"⟩]]] := by decide

theorem oneStep_clean (P : ℝ) : ∀ states ∈ (oneStepModel P).net.rxns, RateClean states := by
  have : ∀ states ∈ (netOf oneStep).rxns, RateClean states :=
    fun st hst => rateClean_of ((by decide : ∀ st ∈ (netOf oneStep).rxns, rateCleanB st = true) st hst)
  exact this

theorem oneStep_steady (P kf kr θ : ℝ) : steadyStateFunction (oneStepModel P) ([kf], [kr]) [θ] = .ok [kf * (P * (1 - θ)) - kr * θ] := by
  have hk : ∀ x : ℝ, KOk oneStep [x] (fun _ => x) := by
    intro x
    refine ⟨fun i hi => ?_⟩
    have : i = 0 := by
      have : oneStep.length = 1 := rfl
      omega
    subst this
    rfl
  have := steady_codeFlow (oneStep_ready P) (oneStep_clean P) (fun _ => θ) (hk kf) (hk kr)
  have hads : (oneStepModel P).net.ads = [str! "CO_s"] := oneStep_ads
  rw [hads] at this
  rw [show [θ] = [str! "CO_s"].map (fun _ => θ) from rfl, this]
  congr 1
  rw [List.map_singleton]
  congr 1
  unfold codeFlow
  rw [show (oneStepModel P).net.rxns = _ from oneStep_rxns, show (oneStepModel P).rxns = [str! "CO_g + *_s -> CO_s"] from rfl]
  rw [List.zipWith_cons_cons, List.zipWith_nil_left, List.sum_singleton]
  have c1 : coverage (oneStepModel P).net (fun _ => 1) (fun _ => θ) (str! "CO_s") = θ := by
    unfold coverage
    rw [if_pos (by rw [hads]; simp)]
  have c2 : coverage (oneStepModel P).net (fun _ => 1) (fun _ => θ) (str! "*_s") = 1 - θ := by
    unfold coverage
    rw [if_neg (by rw [hads]; decide), hads]
    have : [str! "CO_s"].filter (fun a => OnSite a (str! "*_s")) = [str! "CO_s"] := by decide
    rw [this]
    simp
  rw [show codeCoef (str! "CO_s") [[⟨str! "CO_g", 1, str! "CO", 1, str! "g", str! "CO_g"⟩, ⟨str! "*_s", 1, str! "*", 1, str! "s", str! "*_s"⟩],
     [⟨str! "CO_s", 1, str! "CO", 1, str! "s", str! "CO_s"⟩]] = 1 by decide]
  simp only [List.head?_cons, List.getLast?_cons_cons, List.getLast?_singleton, rateOf, stateActivity, List.map_cons, List.map_nil, List.prod_cons,
    List.prod_nil, mul_one, pow_one, Int.cast_one, one_mul]
  rw [show specAct (fun _ => P) (fun _ => 0) (coverage (oneStepModel P).net (fun _ => 1) fun _ => θ) ⟨str! "CO_g", 1, str! "CO", 1, str! "g", str! "CO_g"⟩ = P from rfl,
    show specAct (fun _ => P) (fun _ => 0) (coverage (oneStepModel P).net (fun _ => 1) fun _ => θ) ⟨str! "*_s", 1, str! "*", 1, str! "s", str! "*_s"⟩ = _ from c2,
    show specAct (fun _ => P) (fun _ => 0) (coverage (oneStepModel P).net (fun _ => 1) fun _ => θ) ⟨str! "CO_s", 1, str! "CO", 1, str! "s", str! "CO_s"⟩ = _ from c1]

/-- **C132** Adsorption: the residual is the distance from the steady coverage times the sum of the two rates. -/
theorem C132_adsorption (P kf kr θ : ℝ) (hk : 0 < kf * P + kr) :
    getResidual (oneStepModel P) ([kf], [kr]) [θ] = .ok ((kf * P + kr) * |θ - kf * P / (kf * P + kr)|) := by
  unfold getResidual
  rw [oneStep_steady]
  show Except.ok |kf * (P * (1 - θ)) - kr * θ| = _
  congr 1
  rw [← abs_of_pos hk, ← abs_mul, abs_of_pos hk, abs_sub_comm]
  congr 1
  field_simp
  ring

/-- **C132** No tolerance is right for all energies: for every tolerance and temperature there is a barrier such that the search returns the
empty surface it is given, whatever the iterator, although the only steady state is half covered. -/
theorem C132_uniform_refuted (tol T : ℝ) (htol : 0 < tol) (hT : 0 < T) :
    ∃ (E : ℝ) (k : List ℝ × List ℝ), rateConstants ⟨oneStep, T, [], 1, 1, false⟩ .TST ⟨some [E], some [E], some [0]⟩ = .ok k ∧
      (∃ w, PhysicalSteady (oneStepModel 1) (fun _ => 1) k w) ∧
      (∀ w, PhysicalSteady (oneStepModel 1) (fun _ => 1) k w → w (str! "CO_s") = 1 / 2) ∧
      ∀ (newton : List ℝ → List (List ℝ × ℝ) × IterEnd) (maxIter : Int) (hybrid : Option (Option (List ℝ) → Nat → Py (List ℝ))) (st : SolveState ℝ),
        ∃ st', getSteady ⟨getResidual (oneStepModel 1) k, getResidual (oneStepModel 1) k, newton, tol, maxIter, hybrid, [], false⟩ .ok 1 (some [0]) st
          = some (st', .returned [0]) := by
  have hk := kBeV_pos
  have hh := heV_pos
  have hads : (oneStepModel 1).net.ads = [str! "CO_s"] := oneStep_ads
  have hsites : (oneStepModel 1).net.sites = [str! "*_s"] := by
    have : (netOf oneStep).sites = [str! "*_s"] := by decide
    exact this
  have hfil : [str! "CO_s"].filter (fun a => OnSite a (str! "*_s")) = [str! "CO_s"] := by decide
  have hrate : kTST (-Real.log (tol * heV / (kBeV * T)) * (kBeV * T)) T = .ok tol := by
    unfold kTST
    rw [if_neg hT.ne']
    congr 1
    rw [neg_mul, neg_neg, mul_div_cancel_right₀ _ (mul_pos hk hT).ne', Real.exp_log (by positivity)]
    field_simp
  refine ⟨-Real.log (tol * heV / (kBeV * T)) * (kBeV * T), ([tol], [tol]), ?_, ?_, ?_, ?_⟩
  · generalize -Real.log (tol * heV / (kBeV * T)) * (kBeV * T) = E at hrate
    have : ratesTST ⟨oneStep, T, [], 1, 1, false⟩ ⟨some [E], some [E], some [0]⟩ false (str! "CO_g + *_s -> CO_s") = .ok (tol, tol) := by
      unfold ratesTST
      have : relOf oneStep ⟨some [E], some [E], some [0]⟩ (str! "CO_g + *_s -> CO_s") = .ok ⟨E, E, 0⟩ := rfl
      show (relOf oneStep _ _ >>= _) = _
      rw [this]
      show (kTST E T >>= fun rf => kTST E T >>= fun rr => _) = _
      rw [hrate]
      rfl
    unfold rateConstants
    show (([str! "CO_g + *_s -> CO_s"].mapM (ratesTST ⟨oneStep, T, [], 1, 1, false⟩ ⟨some [E], some [E], some [0]⟩ false)) >>= _) = _
    rw [List.mapM_cons, this]
    rfl
  · refine ⟨fun _ => 1 / 2, ⟨fun _ _ => by norm_num, fun s hs => ?_⟩, ?_⟩
    · rw [hsites, List.mem_singleton] at hs
      rw [hs, hads, hfil]
      norm_num
    · rw [hads, List.map_singleton, oneStep_steady]
      norm_num
  · rintro w ⟨-, hw⟩
    rw [hads, List.map_singleton, oneStep_steady] at hw
    have := (List.cons.inj (Except.ok.inj hw)).1
    have h2 : tol * (1 - 2 * w (str! "CO_s")) = 0 := by linarith
    rcases mul_eq_zero.mp h2 with h3 | h3 <;> linarith
  · intro newton maxIter hybrid st
    have hres : getResidual (oneStepModel 1) ([tol], [tol]) [0] = .ok tol := by
      rw [C132_adsorption 1 tol tol 0 (by linarith)]
      congr 1
      have : tol * 1 / (tol * 1 + tol) = 1 / 2 := by
        field_simp
        norm_num
      rw [this]
      norm_num
      ring
    refine ⟨⟨some [0], some tol, true, st.calls, st.archived ++ [.coverages [0], .error tol, .guess [0]]⟩, ?_⟩
    simp [getSteady, outerLoop, outerBody, hres, finalizeAll, finish, allCalls, bind, Except.bind, pure, Except.pure]

/-- **C132** Gases in equilibrium, and no reaction waiting for another (`Unblocked`). Then the physical coverages with a small
residual are near an equilibrium, where every reaction runs both ways at the same rate.
Steady states of other networks need not be equilibria. -/
theorem C132_equilibrium (o : MFOwner ℝ) (total P C : Str → ℝ) (kf kr : List ℝ) (κf κr : Str → ℝ)
    (h : FlowOk o total P C kf kr κf κr) (hnd : o.rxns.Nodup) (hlf : kf.length = o.rxns.length) (hlr : kr.length = o.rxns.length)
    (e : Str → ℝ) (he : Live o total P C kf kr e) (hse : Standstill o (kf, kr) e)
    (hs : ∀ s ∈ o.net.sites, 0 < total s) (hu : Unblocked o.net) (ε : ℝ) (hε : 0 < ε) :
    ∃ δ, 0 < δ ∧ ∀ (v : Str → ℝ) (r : ℝ), PhysicalCoverages o total v → getResidual o (kf, kr) (o.net.ads.map v) = .ok r → r ≤ δ →
      ∃ w, PhysicalCoverages o total w ∧ Standstill o (kf, kr) w ∧ ∀ a ∈ o.net.ads, |v a - w a| ≤ ε := by
  obtain ⟨δ, hδ, hall⟩ := C132_close o total P C h.ready h.clean kf kr hnd hlf hlr ε hε
  refine ⟨δ, hδ, fun v r hph hr hle => ?_⟩
  obtain ⟨w, hw, hb⟩ := hall v r hph hr hle
  refine ⟨w, hw.1, ?_, hb⟩
  refine (C124_equilibrium_partial o total P C kf kr κf κr h e he hse hs hu w (fun x hx => ?_) _ hw.2).1
  unfold coverage
  split
  · rename_i hx
    exact hw.1.1 x hx
  · rename_i hna
    have : x ∈ o.net.sites := (List.mem_append.mp hx).resolve_right hna
    linarith [hw.1.2 x this]

/-- One adsorbate: every hypothesis holds, the half covered surface is physical and its residual is a number. -/
example : Ready (oneStepModel 2) (fun _ => 1) (fun _ => 2) (fun _ => 0) ∧ (∀ states ∈ (oneStepModel 2).net.rxns, RateClean states) ∧
    (oneStepModel 2).rxns.Nodup ∧ getResidual (oneStepModel 2) ([3], [2]) [1 / 2] = .ok 2 ∧
    getResidual (oneStepModel 2) ([3], [2]) [3 / 4] = .ok 0 := by
  refine ⟨oneStep_ready 2, oneStep_clean 2, by have : oneStep.Nodup := by decide
                                               exact this, ?_, ?_⟩
  · rw [C132_adsorption _ _ _ _ (by norm_num)]
    norm_num [abs_of_neg]
  · rw [C132_adsorption _ _ _ _ (by norm_num)]
    norm_num

/-- Carbon monoxide and oxygen with a reaction between them, the gases in equilibrium: small residuals are near one third each. -/
example (ε : ℝ) (hε : 0 < ε) : ∃ δ, 0 < δ ∧ ∀ (v : Str → ℝ) (r : ℝ), PhysicalCoverages exDriveMF (fun _ => 1) v →
    getResidual exDriveMF ([1, 1, 1], [1, 1, 1]) (exDriveMF.net.ads.map v) = .ok r → r ≤ δ → ∀ a ∈ exDriveMF.net.ads, |v a - 1 / 3| ≤ ε := by
  have hse : Standstill exDriveMF ([1, 1, 1], [1, 1, 1]) (fun _ => 1 / 3) := by
    rw [exEqui_standstill]; norm_num
  have he := exEqui_live (fun _ => 1 / 3) (by norm_num) (by norm_num) (by norm_num)
  have hnd : exDriveMF.rxns.Nodup := by decide
  refine C132_unique _ _ _ _ exEqui_ok.ready exEqui_ok.clean _ _ hnd rfl rfl (fun _ => 1 / 3) (fun w hw a ha => ?_) ε hε
  refine (C124_equilibrium_partial _ _ _ _ _ _ _ _ exEqui_ok _ he hse (fun _ _ => one_pos) exUnblocked w (fun x hx => ?_) _ hw.2).2.2
    (sameAmounts_of exDrive_ready.parse _ _ _ exEqui_full) a ha
  unfold coverage
  split
  · rename_i hx
    exact hw.1.1 x hx
  · rename_i hna
    have : x ∈ exDriveMF.net.sites := (List.mem_append.mp hx).resolve_right hna
    linarith [hw.1.2 x this]

example : PhysicalCoverages exDriveMF (fun _ => 1) (fun _ => 1 / 3) := by
  have h1 : exDriveMF.net.sites = [str! "*_s"] := by decide
  have h2 : exDriveMF.net.ads.filter (fun a => OnSite a (str! "*_s")) = [str! "CO_s", str! "O_s"] := by decide
  refine ⟨fun _ _ => by norm_num, fun s hs => ?_⟩
  rw [h1, List.mem_singleton] at hs
  rw [hs, h2]
  norm_num

end Verif
