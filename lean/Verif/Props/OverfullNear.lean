import Verif.Props.Exact7
/-
C133: networks in which every site can adsorb something and no reaction needs or frees more than one empty site. Searches with a small tolerance
end near physical steady states.
-/
namespace Verif
open Dict
set_option linter.unusedSectionVars false

/-- Some reaction fills the empty site `s`, at a rate that depends on no other coverage: all else it needs comes from the gas or the liquid. -/
def Adsorbs (o : MFOwner ℝ) (P C : Str → ℝ) (kf : List ℝ) (s : Str) : Prop :=
  ∃ (i : Nat) (states : List (List Formula)) (is : List Formula) (k : ℝ), o.net.rxns[i]? = some states ∧ states.head? = some is ∧ 0 < totalCoef s is ∧
    kf[i]? = some k ∧ 0 < k ∧ ∀ f ∈ is, isEmptySite f = false →
      (specKind f.species f.site = .gas ∧ 0 < P f.speciesSite) ∨ (specKind f.species f.site = .liquid ∧ 0 < C f.speciesSite)

/-- What drives an adsorption is a positive number that does not depend on the coverages. -/
theorem adsorbs_rate {P C : Str → ℝ} {is : List Formula} (h : ∀ f ∈ is, isEmptySite f = false →
      (specKind f.species f.site = .gas ∧ 0 < P f.speciesSite) ∨ (specKind f.species f.site = .liquid ∧ 0 < C f.speciesSite)) :
    ∃ w, 0 < w ∧ ∀ θ : Str → ℝ, restActivity P C θ is = w := by
  unfold restActivity stateActivity
  induction is with
  | nil => exact ⟨1, one_pos, fun θ => rfl⟩
  | cons f is ih =>
    obtain ⟨w, hw, hall⟩ := ih fun g hg => h g (by simp [hg])
    cases hf : isEmptySite f with
    | true => exact ⟨w, hw, fun θ => by rw [List.filter_cons_of_neg (by simp [hf])]; exact hall θ⟩
    | false =>
      rcases h f (by simp) hf with ⟨hk, hp⟩ | ⟨hk, hp⟩
      · refine ⟨P f.speciesSite ^ f.stoich * w, mul_pos (pow_pos hp _) hw, fun θ => ?_⟩
        rw [List.filter_cons_of_pos (by simp [hf]), List.map_cons, List.prod_cons, hall θ]
        unfold specAct
        rw [hk]
      · refine ⟨C f.speciesSite ^ f.stoich * w, mul_pos (pow_pos hp _) hw, fun θ => ?_⟩
        rw [List.filter_cons_of_pos (by simp [hf]), List.map_cons, List.prod_cons, hall θ]
        unfold specAct
        rw [hk]

/-- **C133** Part: no reaction needs or frees more than one empty site, and every site adsorbs something. For every distance there is a tolerance such
that coverages with a residual within it, none of them negative, are within that distance of a physical steady state. That they fit the surface is not assumed. -/
theorem C133_close_partial (o : MFOwner ℝ) (total P C : Str → ℝ) (h : Ready o total P C) (hc : ∀ states ∈ o.net.rxns, RateClean states)
    (hpos : ∀ s ∈ o.net.sites, 0 ≤ total s) (kf kr : List ℝ) (hnd : o.rxns.Nodup) (hlf : kf.length = o.rxns.length) (hlr : kr.length = o.rxns.length)
    (hkf : ∀ k ∈ kf, 0 ≤ k) (hkr : ∀ k ∈ kr, 0 ≤ k) (hP : ∀ g ∈ o.net.gas, 0 ≤ P g) (hC : ∀ g ∈ o.net.liq, 0 ≤ C g)
    (hside : ∀ a ∈ o.net.ads, ∀ states ∈ o.net.rxns, OneSided a states)
    (hn : ∀ a ∈ o.net.ads, ∀ f, chemFormula a = .ok f → f.nsite = 1) (hone : ∀ states ∈ o.net.rxns, OneEmptySite states)
    (hads : ∀ s ∈ o.net.sites, Adsorbs o P C kf s) (ε : ℝ) (hε : 0 < ε) :
    ∃ δ, 0 < δ ∧ ∀ (v : Str → ℝ) (r : ℝ), (∀ a ∈ o.net.ads, 0 ≤ v a) → getResidual o (kf, kr) (o.net.ads.map v) = .ok r → r ≤ δ →
      ∃ w, PhysicalSteady o total (kf, kr) w ∧ ∀ a ∈ o.net.ads, |v a - w a| ≤ ε := by
  obtain ⟨δ₁, hδ₁, hclose⟩ := close_bounded o total P C h hc kf kr hnd hlf hlr ε hε (fun s => total s + 1)
  -- a residual so small that no site is over-full by more than one
  have hsite : ∀ s ∈ o.net.sites, ∃ d, 0 < d ∧ ∀ (v : Str → ℝ) (r : ℝ), (∀ a ∈ o.net.ads, 0 ≤ v a) → getResidual o (kf, kr) (o.net.ads.map v) = .ok r →
      r ≤ d → ((o.net.ads.filter fun a => OnSite a s).map v).sum ≤ total s + 1 := by
    intro s hs
    obtain ⟨i, states, is, k, h1, h2, h3, h4, h5, h6⟩ := hads s hs
    obtain ⟨w, hw, hall⟩ := adsorbs_rate h6
    refine ⟨k * w / ((o.net.ads.filter fun a => OnSite a s).length + 1), by positivity, fun v r hv hr hle => ?_⟩
    have := C133_excess_partial o total P C h hc v kf kr hnd hlf hlr ⟨hkf, hkr, hP, hC, hv⟩ hside hn hone r hr s hs i states is k h1 h2 h3 h4
    rw [hall] at this
    have h7 : ((o.net.ads.filter fun a => OnSite a s).length : ℝ) * r ≤ k * w := by
      have hl : (0 : ℝ) ≤ (o.net.ads.filter fun a => OnSite a s).length := Nat.cast_nonneg _
      refine (mul_le_mul_of_nonneg_left hle hl).trans ?_
      rw [← mul_div_assoc, div_le_iff₀ (by positivity)]
      nlinarith [mul_pos h5 hw]
    have h8 := this.trans h7
    by_contra hlt
    have : 1 < ((o.net.ads.filter fun a => OnSite a s).map v).sum - total s := by linarith [not_le.mp hlt]
    nlinarith [mul_pos h5 hw]
  obtain ⟨δ₂, hδ₂, hfit⟩ : ∃ d, 0 < d ∧ ∀ s ∈ o.net.sites, ∀ (v : Str → ℝ) (r : ℝ), (∀ a ∈ o.net.ads, 0 ≤ v a) →
      getResidual o (kf, kr) (o.net.ads.map v) = .ok r → r ≤ d → ((o.net.ads.filter fun a => OnSite a s).map v).sum ≤ total s + 1 := by
    generalize o.net.sites = l at hsite
    induction l with
    | nil => exact ⟨1, one_pos, by simp⟩
    | cons s l ih =>
      obtain ⟨d, hd, h1⟩ := ih fun x hx => hsite x (by simp [hx])
      obtain ⟨d', hd', h2⟩ := hsite s (by simp)
      refine ⟨min d d', lt_min hd hd', fun x hx v r hv hr hle => ?_⟩
      rcases List.mem_cons.mp hx with rfl | hx
      · exact h2 v r hv hr (hle.trans (min_le_right _ _))
      · exact h1 x hx v r hv hr (hle.trans (min_le_left _ _))
  refine ⟨min δ₁ δ₂, lt_min hδ₁ hδ₂, fun v r hv hr hle => ?_⟩
  obtain ⟨w, ⟨⟨hw0, -⟩, hws⟩, hb⟩ := hclose v r ⟨hv, fun s hs => hfit s hs v r hv hr (hle.trans (min_le_right _ _))⟩ hr (hle.trans (min_le_left _ _))
  refine ⟨w, ⟨⟨hw0, fun s hs => ?_⟩, hws⟩, hb⟩
  -- the steady state itself fits the surface
  by_cases hne : o.net.ads = []
  · rw [hne]
    simpa using hpos s hs
  · obtain ⟨r', e1, -, -, -, e2, -⟩ := C30_residual o (kf, kr) _ _ hws (by simpa using hne)
    have : r' = 0 := e2.mpr fun d hd => List.eq_of_mem_replicate hd
    subst this
    refine C133_steady_partial o total P C h hc w kf kr hnd hlf hlr ⟨hkf, hkr, hP, hC, hw0⟩ hside hn hone e1 (fun s hs => ?_) s hs
    obtain ⟨i, states, is, k, h1, h2, h3, h4, h5, h6⟩ := hads s hs
    obtain ⟨x, hx, hall⟩ := adsorbs_rate h6
    exact ⟨i, states, is, k, h1, h2, h3, h4, by rw [hall]; exact mul_pos h5 hx⟩

/-- **C133** Part: so for every distance a search with a sufficiently small tolerance returns coverages within this distance of a physical steady state, for every iterator
and every hybrid method that proposes no negative coverages. -/
theorem C133_search_near_partial (o : MFOwner ℝ) (total P C : Str → ℝ) (h : Ready o total P C) (hc : ∀ states ∈ o.net.rxns, RateClean states)
    (hpos : ∀ s ∈ o.net.sites, 0 ≤ total s) (kf kr : List ℝ) (hnd : o.rxns.Nodup) (hlf : kf.length = o.rxns.length) (hlr : kr.length = o.rxns.length)
    (hkf : ∀ k ∈ kf, 0 ≤ k) (hkr : ∀ k ∈ kr, 0 ≤ k) (hP : ∀ g ∈ o.net.gas, 0 ≤ P g) (hC : ∀ g ∈ o.net.liq, 0 ≤ C g)
    (hside : ∀ a ∈ o.net.ads, ∀ states ∈ o.net.rxns, OneSided a states)
    (hn : ∀ a ∈ o.net.ads, ∀ f, chemFormula a = .ok f → f.nsite = 1) (hone : ∀ states ∈ o.net.rxns, OneEmptySite states)
    (hads : ∀ s ∈ o.net.sites, Adsorbs o P C kf s) (ε : ℝ) (hε : 0 < ε) :
    ∃ δ, 0 < δ ∧ ∀ (env : SolveEnv ℝ) (n : Nat) (c0 : Option (List ℝ)) (st st' : SolveState ℝ) (v : Str → ℝ),
      env.resid = getResidual o (kf, kr) → env.tol ≤ δ → FromHybrid env (fun c => ∀ y ∈ c, 0 ≤ y) →
      getSteady env (constrainCoverages o) n c0 st = some (st', .returned (o.net.ads.map v)) →
      ∃ w, PhysicalSteady o total (kf, kr) w ∧ ∀ a ∈ o.net.ads, |v a - w a| ≤ ε := by
  obtain ⟨δ, hδ, hall⟩ := C133_close_partial o total P C h hc hpos kf kr hnd hlf hlr hkf hkr hP hC hside hn hone hads ε hε
  refine ⟨δ, hδ, fun env n c0 st st' v hres htol hhyb hx => ?_⟩
  obtain ⟨⟨r, hr, hle⟩, -⟩ := C31_residual env _ n c0 st st' _ hx
  rw [hres] at hr
  have hv := C31_nonneg_partial env _ (fun c c' hcc => fun y hy => ((constrain_physical o total P C h hpos hcc).unit y hy).1) hhyb n c0 st st' _ hx
  exact hall v r (fun a ha => hv _ (List.mem_map_of_mem ha)) hr (hle.trans htol)

/-- **C133** Part: and if there is only one physical steady state, it returns coverages close to it. -/
theorem C133_unique_partial (o : MFOwner ℝ) (total P C : Str → ℝ) (h : Ready o total P C) (hc : ∀ states ∈ o.net.rxns, RateClean states)
    (hpos : ∀ s ∈ o.net.sites, 0 ≤ total s) (kf kr : List ℝ) (hnd : o.rxns.Nodup) (hlf : kf.length = o.rxns.length) (hlr : kr.length = o.rxns.length)
    (hkf : ∀ k ∈ kf, 0 ≤ k) (hkr : ∀ k ∈ kr, 0 ≤ k) (hP : ∀ g ∈ o.net.gas, 0 ≤ P g) (hC : ∀ g ∈ o.net.liq, 0 ≤ C g)
    (hside : ∀ a ∈ o.net.ads, ∀ states ∈ o.net.rxns, OneSided a states)
    (hn : ∀ a ∈ o.net.ads, ∀ f, chemFormula a = .ok f → f.nsite = 1) (hone : ∀ states ∈ o.net.rxns, OneEmptySite states)
    (hads : ∀ s ∈ o.net.sites, Adsorbs o P C kf s) (w : Str → ℝ)
    (huniq : ∀ w', PhysicalSteady o total (kf, kr) w' → ∀ a ∈ o.net.ads, w' a = w a) (ε : ℝ) (hε : 0 < ε) :
    ∃ δ, 0 < δ ∧ ∀ (env : SolveEnv ℝ) (n : Nat) (c0 : Option (List ℝ)) (st st' : SolveState ℝ) (v : Str → ℝ),
      env.resid = getResidual o (kf, kr) → env.tol ≤ δ → FromHybrid env (fun c => ∀ y ∈ c, 0 ≤ y) →
      getSteady env (constrainCoverages o) n c0 st = some (st', .returned (o.net.ads.map v)) → ∀ a ∈ o.net.ads, |v a - w a| ≤ ε := by
  obtain ⟨δ, hδ, hall⟩ := C133_search_near_partial o total P C h hc hpos kf kr hnd hlf hlr hkf hkr hP hC hside hn hone hads ε hε
  refine ⟨δ, hδ, fun env n c0 st st' v hres htol hhyb hx a ha => ?_⟩
  obtain ⟨w', hw', hb⟩ := hall env n c0 st st' v hres htol hhyb hx
  rw [← huniq w' hw' a ha]
  exact hb a ha

/-! ### cases -/

theorem oneStep_adsorbs (s : Str) (hs : s ∈ (oneStepModel 2).net.sites) : Adsorbs (oneStepModel 2) (fun _ => 2) (fun _ => 0) [3] s := by
  have hsites : (oneStepModel 2).net.sites = [str! "*_s"] := by
    have : (netOf oneStep).sites = [str! "*_s"] := by decide
    exact this
  rw [hsites, List.mem_singleton] at hs
  subst hs
  refine ⟨0, _, _, 3, rfl, rfl, by decide, rfl, by norm_num, ?_⟩
  have : ∀ st ∈ (netOf oneStep).rxns, ∀ is, st.head? = some is → ∀ f ∈ is, isEmptySite f = false → specKind f.species f.site = .gas := by decide
  intro f hf he
  exact .inl ⟨this _ (List.mem_of_getElem? (i := 0) rfl) _ rfl f hf he, by norm_num⟩

/-- Adsorption of one gas: searches with a small tolerance return nearly a physical steady state. -/
example (ε : ℝ) (hε : 0 < ε) : ∃ δ, 0 < δ ∧ ∀ (v : Str → ℝ) (r : ℝ), (∀ a ∈ (oneStepModel 2).net.ads, 0 ≤ v a) →
    getResidual (oneStepModel 2) ([3], [2]) ((oneStepModel 2).net.ads.map v) = .ok r → r ≤ δ →
    ∃ w, PhysicalSteady (oneStepModel 2) (fun _ => 1) ([3], [2]) w ∧ ∀ a ∈ (oneStepModel 2).net.ads, |v a - w a| ≤ ε := by
  refine C133_close_partial (oneStepModel 2) (fun _ => 1) (fun _ => 2) (fun _ => 0) (oneStep_ready 2) (oneStep_clean 2) (fun _ _ => zero_le_one) [3] [2]
    (by decide) rfl rfl (by simp) (by simp) (fun _ _ => zero_le_two) (fun _ _ => le_rfl) ?_ ?_ ?_ oneStep_adsorbs ε hε
  · intro a ha st hst
    exact oneSided_of ((by decide : ∀ a ∈ (netOf oneStep).ads, ∀ st ∈ (netOf oneStep).rxns, oneSidedB a st = true) a ha st hst)
  · have : ∀ a ∈ (netOf oneStep).ads, (match chemFormula a with | .ok f => decide (f.nsite = 1) | .error _ => true) = true := by decide
    intro a ha f hf
    have := this a ha
    rw [hf] at this
    simpa using this
  · intro st hst
    exact oneEmptySite_of ((by decide : ∀ st ∈ (netOf oneStep).rxns, oneEmptySiteB st = true) st hst)

/-- There is one physical steady state: three quarters of the sites are covered. -/
example : ∀ w', PhysicalSteady (oneStepModel 2) (fun _ => 1) ([3], [2]) w' → ∀ a ∈ (oneStepModel 2).net.ads, w' a = 3 / 4 := by
  rintro w' ⟨-, hs⟩ a ha
  have hads : (oneStepModel 2).net.ads = [str! "CO_s"] := oneStep_ads
  rw [hads] at hs ha
  rw [List.mem_singleton] at ha
  subst ha
  rw [List.map_singleton, oneStep_steady] at hs
  have := Except.ok.inj hs
  simp at this
  linarith

end Verif
