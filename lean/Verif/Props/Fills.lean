import Verif.Props.SteadyPositive
/-
Property C124: the coverages of a network without blocked species, followed in time from any beginning.
-/
namespace Verif
open Dict Set Topology
set_option linter.unusedSectionVars false

/-! ### lemmas -/

/-- A solution seen from a later time on. -/
theorem follows_from {o : MFOwner ℝ} {k : List ℝ × List ℝ} {T : ℝ} {v : ℝ → Str → ℝ} (h : Follows o k T v) {a : ℝ} (ha : 0 ≤ a) :
    Follows o k (T - a) (fun t => v (a + t)) := by
  constructor
  · intro x hx
    refine (h.cont x hx).comp (f := fun t => a + t) (by fun_prop) ?_
    intro t ht
    exact ⟨by linarith [ht.1], by linarith [ht.2]⟩
  · intro t ht
    obtain ⟨ds, h1, h2⟩ := h.deriv (a + t) ⟨by linarith [ht.1], by linarith [ht.2]⟩
    exact ⟨ds, h1, fun p hp => (h2 p hp).comp_const_add a t⟩

/-- What is present stays present. -/
theorem stays_present {o : MFOwner ℝ} {total P C : Str → ℝ} {kf kr : List ℝ} {κf κr : Str → ℝ}
    (h : FlowOk o total P C kf kr κf κr) {T : ℝ} {v : ℝ → Str → ℝ} (hv : Follows o (kf, kr) T v)
    (hph : PhysicalState o total P C (v 0) kf kr) {x : Str} (hx : x ∈ o.net.siteCols) {a b : ℝ} (ha : 0 ≤ a) (hab : a ≤ b)
    (hb : b ≤ T) (hpos : 0 < coverage o.net total (v a) x) : 0 < coverage o.net total (v b) x := by
  have h1 := (C93_physical_partial o total P C kf kr κf κr h T v hv hph a ⟨ha, hab.trans hb⟩).1
  have h2 := C93_positive_partial o total P C kf kr κf κr h (T - a) (fun t => v (a + t)) (follows_from hv ha)
    (by simpa using h1) x hx (by simpa using hpos) (b - a) ⟨by linarith, by linarith⟩
  simpa using h2

theorem live_gas {o : MFOwner ℝ} {total P C : Str → ℝ} {kf kr : List ℝ} {κf κr : Str → ℝ}
    (h : FlowOk o total P C kf kr κf κr) {e : Str → ℝ} (he : Live o total P C kf kr e) :
    (∀ g ∈ o.net.gas, 0 < P g) ∧ ∀ g ∈ o.net.liq, 0 < C g := by
  have hg : ∀ g ∈ o.net.gas ++ o.net.liq, 0 < activity o.net P C (coverage o.net total e) g := fun g hg =>
    he.act g (by unfold allCols Network.reaproCols; exact List.mem_append_right _ hg)
  constructor
  · intro g hg'
    have := hg g (List.mem_append_left _ hg')
    unfold activity at this
    rwa [if_pos hg'] at this
  · intro g hg'
    have hno : g ∉ o.net.gas := by
      intro hg2
      have := (reaproCols_nodup h.ready.parse)
      unfold Network.reaproCols at this
      rw [List.nodup_append] at this
      exact this.2.2 g hg2 g hg' rfl
    have := hg g (List.mem_append_right _ hg')
    unfold activity at this
    rwa [if_neg hno, if_pos hg'] at this

/-- Where every reaction stands still nothing changes. -/
theorem standstill_flow {o : MFOwner ℝ} {total P C : Str → ℝ} {kf kr : List ℝ} {κf κr : Str → ℝ}
    (h : FlowOk o total P C kf kr κf κr) {u : Str → ℝ} (hst : Standstill o (kf, kr) u) (x : Str) :
    flow o.net o.rxns P C κf κr (coverage o.net total u) x = 0 := by
  have h2 := (standstill_iff h u).mp hst
  rw [flow_pairs]
  have hz : (ratePairs o P C κf κr (coverage o.net total u)).map (fun p => p.1 - p.2)
      = List.replicate (ratePairs o P C κf κr (coverage o.net total u)).length 0 := by
    rw [List.eq_replicate_iff]
    refine ⟨by simp, ?_⟩
    intro x hx
    obtain ⟨p, hp, rfl⟩ := List.mem_map.mp hx
    rw [h2 p hp, sub_self]
  rw [hz]
  apply List.sum_eq_zero
  intro x hx
  obtain ⟨i, hi, rfl⟩ := List.mem_iff_getElem.mp hx
  rw [List.getElem_zipWith, List.getElem_replicate, mul_zero]

/-- What no reaction changes keeps its amount. -/
theorem amount_kept {o : MFOwner ℝ} {total P C : Str → ℝ} {kf kr : List ℝ} {κf κr : Str → ℝ}
    (h : FlowOk o total P C kf kr κf κr) {T : ℝ} {v : ℝ → Str → ℝ} (hv : Follows o (kf, kr) T v) {w : Str → ℝ}
    (hw : Conserved o.net w) : ∀ t ∈ Icc 0 T, (o.net.siteCols.map fun x => w x * coverage o.net total (v t) x).sum
      = (o.net.siteCols.map fun x => w x * coverage o.net total (v 0) x).sum := by
  intro t ht
  have := Flow.conserved (fun i : {x // x ∈ o.net.siteCols} => w i.1) (fun y => by
    have h1 := conserved_flow hw P C κf κr (extend o.net.siteCols y)
    rw [← sum_cols (siteCols_nodup h.ready.parse)] at h1
    rw [← h1]
    apply Finset.sum_congr rfl
    intro i _
    exact mul_comm _ _) (hv.solves h) t ht
  rw [← sum_cols (siteCols_nodup h.ready.parse), ← sum_cols (siteCols_nodup h.ready.parse)]
  exact this

/-! ## C124 -/

/-- From any physical beginning, with positive rate constants, pressures, concentrations and totals, the
coverages of an unblocked network contain every adsorbate and every kind of free site at all later
times: also when the surface begins empty or full. Missing: end states with transition states or starred
species, species on both sides of a reaction, adsorbates on several sites. -/
theorem C124_fills_partial (o : MFOwner ℝ) (total P C : Str → ℝ) (kf kr : List ℝ) (κf κr : Str → ℝ)
    (h : FlowOk o total P C kf kr κf κr) (hkf : ∀ k ∈ kf, 0 < k) (hkr : ∀ k ∈ kr, 0 < k)
    (hP : ∀ g ∈ o.net.gas, 0 < P g) (hC : ∀ g ∈ o.net.liq, 0 < C g) (hs : ∀ s ∈ o.net.sites, 0 < total s)
    (hu : Unblocked o.net) (T : ℝ) (v : ℝ → Str → ℝ) (hv : Follows o (kf, kr) T v)
    (h0 : ∀ x ∈ o.net.siteCols, 0 ≤ coverage o.net total (v 0) x) :
    ∀ t ∈ Ioc 0 T, ∀ x ∈ o.net.siteCols, 0 < coverage o.net total (v t) x := by
  have hph : PhysicalState o total P C (v 0) kf kr := ⟨fun k hk => (hkf k hk).le, fun k hk => (hkr k hk).le,
    fun g hg => (hP g hg).le, fun g hg => (hC g hg).le, h0⟩
  intro t ht
  have hnn : ∀ s ∈ Icc 0 T, ∀ x ∈ o.net.siteCols, 0 ≤ coverage o.net total (v s) x := fun s hs =>
    (C93_physical_partial o total P C kf kr κf κr h T v hv hph s hs).1.theta
  -- a time with as few species present as ever
  let c : ℝ → Nat := fun s => (o.net.siteCols.filter fun x => decide (0 < coverage o.net total (v s) x)).length
  have hne : ∃ n, ∃ s ∈ Ioo 0 t, c s = n := ⟨_, t / 2, ⟨by linarith [ht.1], by linarith [ht.1]⟩, rfl⟩
  classical
  obtain ⟨s, hs1, hs2⟩ := Nat.find_spec hne
  have hmin : ∀ r ∈ Ioo 0 t, c s ≤ c r := by
    intro r hr
    rw [hs2]
    exact Nat.find_min' hne ⟨r, hr, rfl⟩
  -- halfway there the same species are present
  have hτ : s / 2 ∈ Ioo 0 t := ⟨by linarith [hs1.1], by linarith [hs1.1, hs1.2]⟩
  have hsT : s ≤ T := by linarith [hs1.2, ht.2]
  have hsub : (o.net.siteCols.filter fun x => decide (0 < coverage o.net total (v (s / 2)) x)).Sublist
      (o.net.siteCols.filter fun x => decide (0 < coverage o.net total (v s) x)) := by
    have e : (o.net.siteCols.filter fun x => decide (0 < coverage o.net total (v (s / 2)) x))
        = (o.net.siteCols.filter fun x => decide (0 < coverage o.net total (v s) x)).filter
          fun x => decide (0 < coverage o.net total (v (s / 2)) x) := by
      rw [List.filter_filter]
      apply List.filter_congr
      intro x hx
      rw [Bool.eq_iff_iff]
      simp only [Bool.and_eq_true, decide_eq_true_eq]
      refine ⟨fun hp => ⟨hp, ?_⟩, fun hp => hp.1⟩
      exact stays_present h hv hph hx hτ.1.le (by linarith [hs1.1]) hsT hp
    rw [e]
    exact List.filter_sublist
  have heq := hsub.eq_of_length_le (hmin _ hτ)
  have habs : ∀ x ∈ o.net.siteCols, coverage o.net total (v (s / 2)) x = 0 → coverage o.net total (v s) x = 0 := by
    intro x hx hx0
    by_contra hn
    have : x ∈ o.net.siteCols.filter fun x => decide (0 < coverage o.net total (v s) x) :=
      List.mem_filter.mpr ⟨hx, by simpa using lt_of_le_of_ne (hnn s ⟨hs1.1.le, hsT⟩ x hx) (Ne.symm hn)⟩
    rw [← heq] at this
    have := (List.mem_filter.mp this).2
    rw [decide_eq_true_eq] at this
    exact this.ne' hx0
  have hτT : s / 2 ∈ Ioo 0 T := ⟨hτ.1, by linarith [hs1.1]⟩
  have hpos := unblocked_pos h.ready.parse hs hu (hnn _ ⟨hτT.1.le, hτT.2.le⟩)
    (absent_blocks h hkf hkr hP hC (hnn _ ⟨hτT.1.le, hτT.2.le⟩) (by
      intro x hx hx0
      have hz : ∀ r ∈ Icc 0 s, coverage o.net total (v r) x = 0 := by
        intro r hr
        by_contra hn
        have := stays_present h hv hph hx hr.1 hr.2 hsT
          (lt_of_le_of_ne (hnn r ⟨hr.1, hr.2.trans hsT⟩ x hx) (Ne.symm hn))
        exact this.ne' (habs x hx hx0)
      have hd := (hv.solves h).deriv (s / 2) hτT ⟨x, hx⟩
      have hf : field o P C κf κr (fun i => coverage o.net total (v (s / 2)) i.1) ⟨x, hx⟩
          = flow o.net o.rxns P C κf κr (coverage o.net total (v (s / 2))) x := by
        unfold field
        exact flow_congr h.ready.parse h.clean P C κf κr extend_of x
      rw [hf] at hd
      have hc : HasDerivAt (fun τ => coverage o.net total (v τ) x) 0 (s / 2) := by
        refine (hasDerivAt_const (s / 2) (0 : ℝ)).congr_of_eventuallyEq ?_
        have : Ioo 0 s ∈ 𝓝 (s / 2) := Ioo_mem_nhds hτ.1 (by linarith [hs1.1])
        exact Filter.mem_of_superset this fun r hr => hz r ⟨hr.1.le, hr.2.le⟩
      exact hd.unique hc))
  intro x hx
  exact stays_present h hv hph hx hτ.1.le hτ.2.le ht.2 (hpos x hx)

/-- If the gases can be in equilibrium with the surface, then every physical steady state of an unblocked
network is an equilibrium, with all turnover frequencies zero, and among those with the same conserved
amounts there is only one. -/
theorem C124_equilibrium_partial (o : MFOwner ℝ) (total P C : Str → ℝ) (kf kr : List ℝ) (κf κr : Str → ℝ)
    (h : FlowOk o total P C kf kr κf κr) (e : Str → ℝ) (he : Live o total P C kf kr e) (hse : Standstill o (kf, kr) e)
    (hs : ∀ s ∈ o.net.sites, 0 < total s) (hu : Unblocked o.net) (v : Str → ℝ)
    (hv : ∀ x ∈ o.net.siteCols, 0 ≤ coverage o.net total v x) (m : Nat)
    (hst : steadyStateFunction o (kf, kr) (o.net.ads.map v) = .ok (List.replicate m 0)) :
    Standstill o (kf, kr) v ∧ getTof o (kf, kr) (o.net.ads.map v) = .ok ((o.net.gas ++ o.net.liq).map fun _ => 0) ∧
    (SameAmounts o.net (coverage o.net total v) (coverage o.net total e) → ∀ a ∈ o.net.ads, v a = e a) := by
  obtain ⟨hP, hC⟩ := live_gas h he
  have hl : Live o total P C kf kr v := ⟨he.kf, he.kr, allPositive_cover hP hC
    (C123_present_partial o total P C kf kr κf κr h he.kf he.kr hP hC hs hu v hv m hst)⟩
  obtain ⟨h1, h2⟩ := C96_no_turnover_partial o total P C kf kr κf κr h e v he hl hse m hst
  exact ⟨h1, h2, C96_unique_partial o total P C kf kr κf κr h e v he hl hse h1⟩

/-- And from every physical beginning with these conserved amounts, also from the empty surface, the
coverages converge to this equilibrium. -/
theorem C124_converges_partial (o : MFOwner ℝ) (total P C : Str → ℝ) (kf kr : List ℝ) (κf κr : Str → ℝ)
    (h : FlowOk o total P C kf kr κf κr) (e : Str → ℝ) (he : Live o total P C kf kr e) (hse : Standstill o (kf, kr) e)
    (hs : ∀ s ∈ o.net.sites, 0 < total s) (hu : Unblocked o.net) (v : ℝ → Str → ℝ) (hv : ∀ T, Follows o (kf, kr) T v)
    (h0 : ∀ x ∈ o.net.siteCols, 0 ≤ coverage o.net total (v 0) x)
    (hsame : SameAmounts o.net (coverage o.net total (v 0)) (coverage o.net total e)) :
    ∀ a ∈ o.net.ads, Filter.Tendsto (fun t => v t a) Filter.atTop (𝓝 (e a)) := by
  obtain ⟨hP, hC⟩ := live_gas h he
  have h1 := C124_fills_partial o total P C kf kr κf κr h he.kf he.kr hP hC hs hu 1 v (hv 1) h0 1 ⟨one_pos, le_rfl⟩
  have hsh : ∀ T, Follows o (kf, kr) T (fun t => v (1 + t)) := fun T => by
    have := follows_from (hv (1 + T)) zero_le_one
    rwa [add_sub_cancel_left] at this
  intro a ha
  have := C96_converges_partial o total P C kf kr κf κr h e he hse ?_ (fun t => v (1 + t)) hsh
    ⟨he.kf, he.kr, by rw [add_zero]; exact allPositive_cover hP hC h1⟩ ?_ a ha
  · have h3 : (fun t => v t a) = (fun t => v (1 + t) a) ∘ fun t => t - 1 := by
      funext t; simp
    rw [h3]
    exact this.comp (Filter.tendsto_atTop_add_const_right _ (-1) Filter.tendsto_id)
  · intro u hu' hst _ x hx
    refine (C123_present_partial o total P C kf kr κf κr h he.kf he.kr hP hC hs hu u hu'.theta o.net.ads.length ?_ x hx).ne'
    rw [h.derivs]
    congr 1
    rw [← List.map_const']
    apply List.map_congr_left
    intro a ha
    exact standstill_flow h hst a
  · intro w hw
    rw [add_zero, ← hsame w hw]
    exact amount_kept h (hv 1) hw 1 ⟨zero_le_one, le_rfl⟩

/-! ### an example: CO oxidation from the empty surface -/

/-- With all gases in equilibrium: there are coverages in time that begin with the empty surface, all
species are present at every later time, and the coverages of CO and of O tend to one third. -/
example : ∃ v : ℝ → Str → ℝ, (∀ T, Follows exDriveMF ([1, 1, 1], [1, 1, 1]) T v) ∧ v 0 (str! "CO_s") = 0 ∧ v 0 (str! "O_s") = 0 ∧
    (∀ t, 0 < t → 0 < v t (str! "CO_s") ∧ 0 < v t (str! "O_s")) ∧
    ∀ a ∈ exDriveMF.net.ads, Filter.Tendsto (fun t => v t a) Filter.atTop (𝓝 (1 / 3)) := by
  have hse : Standstill exDriveMF ([1, 1, 1], [1, 1, 1]) (fun _ => 1 / 3) := by
    rw [exEqui_standstill]; norm_num
  have he := exEqui_live (fun _ => 1 / 3) (by norm_num) (by norm_num) (by norm_num)
  have hz : ∀ u : Str → ℝ, u (str! "CO_s") = 0 → u (str! "O_s") = 0 →
      ∀ x ∈ exDriveMF.net.siteCols, 0 ≤ coverage exDriveMF.net (fun _ => (1 : ℝ)) u x := by
    intro u c1 c2
    rw [exEqui_cols]
    simp only [List.mem_cons, List.not_mem_nil, or_false, forall_eq_or_imp, forall_eq]
    rw [exEqui_star, (exEqui_ads u).1, (exEqui_ads u).2, c1, c2]
    norm_num
  have hph := live_physical exEqui_ok he
  obtain ⟨v, hv0, hv⟩ := C93_exists_partial _ _ _ _ _ _ _ _ exEqui_ok (fun _ => 0)
    ⟨hph.kf, hph.kr, hph.gas, hph.liq, hz _ rfl rfl⟩
  have c1 := hv0 (str! "CO_s") (by decide)
  have c2 := hv0 (str! "O_s") (by decide)
  refine ⟨v, hv, c1, c2, fun t ht => ?_, C124_converges_partial _ _ _ _ _ _ _ _ exEqui_ok _ he hse (fun _ _ => one_pos)
    exUnblocked v hv (hz _ c1 c2) (sameAmounts_of exDrive_ready.parse _ _ _ exEqui_full)⟩
  have := C124_fills_partial _ _ _ _ _ _ _ _ exEqui_ok he.kf he.kr (live_gas exEqui_ok he).1 (live_gas exEqui_ok he).2
    (fun _ _ => one_pos) exUnblocked t v (hv t) (hz _ c1 c2) t ⟨ht, le_rfl⟩
  rw [exEqui_cols] at this
  have a2 := this (str! "CO_s") (by simp)
  have a3 := this (str! "O_s") (by simp)
  rw [(exEqui_ads _).1] at a2
  rw [(exEqui_ads _).2] at a3
  exact ⟨a2, a3⟩

end Verif
