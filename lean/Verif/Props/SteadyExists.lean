import Verif.Props.Flow
import Verif.Lemmas.Brouwer
/-
Property C122: every network has a physical steady state, and from every physical beginning one with
the same conserved amounts (existence; what the search finds is C13, C41, C57, C70).
-/
namespace Verif
open Dict
set_option linter.unusedSectionVars false

/-! ### specification -/

/-- The weighted amount `∑ c a · v a` does not change whatever the coverages: its derivative, computed
from the derivatives of `steady_state_function`, is zero. -/
def ConservedAmount (o : MFOwner ℝ) (k : List ℝ × List ℝ) (c : Str → ℝ) : Prop :=
  ∀ (v : Str → ℝ) (derivs : List ℝ), steadyStateFunction o k (o.net.ads.map v) = .ok derivs →
    (List.zipWith (fun a d => c a * d) o.net.ads derivs).sum = 0

/-! ### a zero of a field on a polytope -/

theorem zero_pi {ι : Type} [Fintype ι] {K : Set (ι → ℝ)} (hne : K.Nonempty) (hc : IsCompact K) (hK : Convex ℝ K)
    {F : (ι → ℝ) → ι → ℝ} (hF : Continuous F) (hin : ∀ x ∈ K, ∃ t : ℝ, 0 < t ∧ x + t • F x ∈ K) : ∃ x ∈ K, F x = 0 := by
  let e := EuclideanSpace.equiv ι ℝ
  have hK' : e.symm '' K = e ⁻¹' K := e.symm.image_eq_preimage_symm K
  obtain ⟨x, hx, h0⟩ := Brouwer.zero_of_inward (E := EuclideanSpace ℝ ι) (K := e ⁻¹' K) (F := fun y => e.symm (F (e y)))
    (hK' ▸ hne.image _) (hK' ▸ hc.image e.symm.continuous) (hK.linear_preimage e.toLinearMap)
    (e.symm.continuous.comp (hF.comp e.continuous)).continuousOn (by
      intro x hx
      obtain ⟨t, t0, ht⟩ := hin _ hx
      refine ⟨t, t0, ?_⟩
      show e (x + t • e.symm (F (e x))) ∈ K
      rw [map_add, map_smul, ContinuousLinearEquiv.apply_symm_apply]
      exact ht)
  refine ⟨e x, hx, ?_⟩
  exact e.symm.injective (h0.trans (map_zero e.symm).symm)

/-- Where an inward field keeps the sum, it vanishes somewhere, with all further conserved sums as in a
given point. -/
theorem rest_exists {ι : Type} [Fintype ι] {F : (ι → ℝ) → ι → ℝ} (hF : Continuous F) (hin : Flow.Inward F)
    (hsum : ∀ y, ∑ i, F y i = 0) {A : Set (ι → ℝ)} (hAc : IsClosed A) (hA : Convex ℝ A)
    (hAF : ∀ y ∈ A, ∀ t : ℝ, y + t • F y ∈ A) {y0 : ι → ℝ} (h0 : ∀ i, 0 ≤ y0 i) (hy0 : y0 ∈ A) :
    ∃ y ∈ A, (∀ i, 0 ≤ y i) ∧ (∀ c : ι → ℝ, (∀ y ∈ A, ∑ i, c i * F y i = 0) → ∑ i, c i * y i = ∑ i, c i * y0 i) ∧ F y = 0 := by
  let K : Set (ι → ℝ) := {y | y ∈ A ∧ (∀ i, 0 ≤ y i) ∧
    ∀ c : ι → ℝ, (∀ y ∈ A, ∑ i, c i * F y i = 0) → ∑ i, c i * y i = ∑ i, c i * y0 i}
  suffices hK : ∃ y ∈ K, F y = 0 by
    obtain ⟨y, ⟨k1, k2, k3⟩, e⟩ := hK
    exact ⟨y, k1, k2, k3, e⟩
  refine zero_pi (K := K) ⟨y0, hy0, h0, fun _ _ => rfl⟩ ?_ ?_ hF ?_
  · apply IsCompact.of_isClosed_subset (isCompact_univ_pi fun _ : ι => isCompact_Icc (a := (0 : ℝ)) (b := ∑ i, y0 i))
    · have e : K = A ∩ ((⋂ i, {y | 0 ≤ y i}) ∩ ⋂ c : ι → ℝ, ⋂ _ : ∀ y ∈ A, ∑ i, c i * F y i = 0,
          {y | ∑ i, c i * y i = ∑ i, c i * y0 i}) := by
        ext; simp [K]; tauto
      rw [e]
      exact hAc.inter ((isClosed_iInter fun i => isClosed_le continuous_const (continuous_apply i)).inter
        (isClosed_iInter fun c => isClosed_iInter fun _ =>
          isClosed_eq (continuous_finsetSum _ fun i _ => continuous_const.mul (continuous_apply i)) continuous_const))
    · rintro y ⟨-, y1, y2⟩ i -
      refine ⟨y1 i, ?_⟩
      have := y2 (fun _ => 1) fun y _ => by simpa using hsum y
      simp only [one_mul] at this
      rw [← this]
      exact Finset.single_le_sum (fun j _ => y1 j) (Finset.mem_univ i)
  · rintro y ⟨a1, a2, a3⟩ z ⟨b1, b2, b3⟩ α β hα hβ hab
    refine ⟨hA a1 b1 hα hβ hab, fun i => ?_, fun c hc => ?_⟩
    · have := a2 i
      have := b2 i
      simp only [Pi.add_apply, Pi.smul_apply, smul_eq_mul]
      positivity
    · simp only [Pi.add_apply, Pi.smul_apply, smul_eq_mul]
      have h1 : ∑ i, c i * (α * y i + β * z i) = α * ∑ i, c i * y i + β * ∑ i, c i * z i := by
        rw [Finset.mul_sum, Finset.mul_sum, ← Finset.sum_add_distrib]
        exact Finset.sum_congr rfl fun i _ => by ring
      rw [h1, a3 c hc, b3 c hc, ← add_mul, hab, one_mul]
  · rintro y ⟨a1, a2, a3⟩
    have hev : ∀ᶠ t : ℝ in nhdsWithin 0 (Set.Ioi 0), ∀ i, 0 ≤ y i + t * F y i := by
      rw [Filter.eventually_all]
      intro i
      rcases (a2 i).eq_or_lt with e | e
      · filter_upwards [self_mem_nhdsWithin] with t ht
        rw [← e, zero_add]
        exact mul_nonneg (le_of_lt ht) (hin y a2 i e.symm)
      · have hc : ContinuousAt (fun t : ℝ => y i + t * F y i) 0 := by fun_prop
        have : ∀ᶠ t : ℝ in nhds 0, 0 < y i + t * F y i := hc.eventually (lt_mem_nhds (by simpa using e))
        exact (this.filter_mono nhdsWithin_le_nhds).mono fun t ht => ht.le
    obtain ⟨t, ht, t0⟩ := (hev.and self_mem_nhdsWithin).exists
    refine ⟨t, t0, hAF y a1 t, ht, fun c hc => ?_⟩
    simp only [Pi.add_apply, Pi.smul_apply, smul_eq_mul]
    have h1 : ∑ i, c i * (y i + t * F y i) = ∑ i, c i * y i + t * ∑ i, c i * F y i := by
      rw [Finset.mul_sum, ← Finset.sum_add_distrib]
      exact Finset.sum_congr rfl fun i _ => by ring
    rw [h1, hc y a1, mul_zero, add_zero, a3 c hc]

/-! ## C122 -/

/-- From every physical beginning there is a physical steady state with the same value of every
conserved amount. Missing: end states with transition states or starred species, species on both sides
of a reaction, adsorbates on several sites. -/
theorem C122_exists_partial (o : MFOwner ℝ) (total P C : Str → ℝ) (kf kr : List ℝ) (κf κr : Str → ℝ)
    (h : FlowOk o total P C kf kr κf κr) (v0 : Str → ℝ) (hph : PhysicalState o total P C v0 kf kr) :
    ∃ v : Str → ℝ, PhysicalState o total P C v kf kr ∧
      steadyStateFunction o (kf, kr) (o.net.ads.map v) = .ok (List.replicate o.net.ads.length 0) ∧
      ∀ c, ConservedAmount o (kf, kr) c → (o.net.ads.map fun a => c a * v a).sum = (o.net.ads.map fun a => c a * v0 a).sum := by
  let cols := o.net.siteCols
  let A : Set ({x // x ∈ cols} → ℝ) := {y | ∀ s ∈ o.net.sites,
    ((o.net.ads.filter fun a => OnSite a s).map (extend cols y)).sum + extend cols y s = total s}
  have hext : ∀ (y z : {x // x ∈ cols} → ℝ) (α β : ℝ) x, extend cols (α • y + β • z) x = α * extend cols y x + β * extend cols z x := by
    intro y z α β x
    unfold extend
    split <;> simp
  have hlist : ∀ (y z : {x // x ∈ cols} → ℝ) (α β : ℝ) (l : List Str), (l.map (extend cols (α • y + β • z))).sum
      = α * (l.map (extend cols y)).sum + β * (l.map (extend cols z)).sum := by
    intro y z α β l
    induction l with
    | nil => simp
    | cons x l ih =>
      simp only [List.map_cons, List.sum_cons, ih, hext]
      ring
  have hfield : ∀ (y : {x // x ∈ cols} → ℝ), ∀ x ∈ cols, extend cols (field o P C κf κr y) x
      = flow o.net o.rxns P C κf κr (extend cols y) x := by
    intro y x hx
    unfold extend
    rw [dif_pos hx]
    rfl
  have hads : ∀ a ∈ o.net.ads, a ∈ cols := fun a ha => List.mem_append_right _ ha
  have hsites : ∀ s ∈ o.net.sites, s ∈ cols := fun s hs => List.mem_append_left _ hs
  -- in the set the free sites are what the totals leave
  have hcov : ∀ y ∈ A, ∀ x ∈ cols, coverage o.net total (extend cols y) x = extend cols y x := by
    intro y hy x hx
    unfold coverage
    split
    · rfl
    · rename_i hn
      have hs : x ∈ o.net.sites := by
        rcases List.mem_append.mp hx with e | e
        · exact e
        · exact absurd e hn
      rw [← hy x hs]
      ring
  have hderiv : ∀ y ∈ A, steadyStateFunction o (kf, kr) (o.net.ads.map (extend cols y))
      = .ok (o.net.ads.map (extend cols (field o P C κf κr y))) := by
    intro y hy
    rw [h.derivs]
    congr 1
    apply List.map_congr_left
    intro a ha
    rw [hfield y a (hads a ha)]
    exact flow_congr h.ready.parse h.clean P C κf κr (hcov y hy) a
  obtain ⟨y, y1, y2, y3, y4⟩ := rest_exists (field_contDiff o P C κf κr).continuous (field_inward h hph) (field_sum h) (A := A)
    (by
      rw [show A = ⋂ s, ⋂ _ : s ∈ o.net.sites, {y | ((o.net.ads.filter fun a => OnSite a s).map (extend cols y)).sum
        + extend cols y s = total s} by ext; simp [A]]
      refine isClosed_iInter fun s => isClosed_iInter fun _ => isClosed_eq (Continuous.add ?_ (extend_contDiff cols s).continuous) continuous_const
      generalize o.net.ads.filter _ = l
      induction l with
      | nil => simpa using continuous_const
      | cons a l ih =>
        simp only [List.map_cons, List.sum_cons]
        exact (extend_contDiff cols a).continuous.add ih)
    (by
      intro y hy z hz α β _ _ hab s hs
      rw [hlist, hext]
      have e1 := hy s hs
      have e2 := hz s hs
      linear_combination α * e1 + β * e2 + total s * hab)
    (by
      intro y hy t s hs
      rw [show y + t • field o P C κf κr y = (1 : ℝ) • y + t • field o P C κf κr y by rw [one_smul], hlist, hext]
      have e1 := hy s hs
      have e2 := flow_totals h.ready h.clean h.kf h.kr h.one h.nsite (extend cols y) s hs
      have e3 : ((o.net.ads.filter fun a => OnSite a s).map (extend cols (field o P C κf κr y)))
          = (o.net.ads.filter fun a => OnSite a s).map (flow o.net o.rxns P C κf κr (extend cols y)) := by
        apply List.map_congr_left
        intro a ha
        exact hfield y a (hads a (List.mem_filter.mp ha).1)
      rw [e3, hfield y s (hsites s hs)]
      linear_combination e1 + t * e2)
    (y0 := fun i => coverage o.net total v0 i.1) (fun i => hph.theta i.1 i.2)
    (by
      intro s hs
      have e : ∀ x ∈ cols, extend cols (fun i => coverage o.net total v0 i.1) x = coverage o.net total v0 x := extend_of
      rw [e s (hsites s hs)]
      have e2 : ((o.net.ads.filter fun a => OnSite a s).map (extend cols fun i => coverage o.net total v0 i.1))
          = (o.net.ads.filter fun a => OnSite a s).map v0 := by
        apply List.map_congr_left
        intro a ha
        have ha := (List.mem_filter.mp ha).1
        rw [e a (hads a ha)]
        unfold coverage
        rw [if_pos ha]
      rw [e2]
      unfold coverage
      rw [if_neg (sites_disjoint h.ready.parse s hs)]
      ring)
  have hzip : ∀ (c w : Str → ℝ) (l : List Str), (List.zipWith (fun a d => c a * d) l (l.map w)) = l.map fun a => c a * w a := by
    intro c w l
    induction l with
    | nil => rfl
    | cons x l ih => simp [ih]
  have hz : ∀ x, extend cols (0 : {x // x ∈ cols} → ℝ) x = 0 := by
    intro x; unfold extend; split <;> rfl
  have hcols : ∀ (c : Str → ℝ) (w : {x // x ∈ cols} → ℝ), ∑ i : {x // x ∈ cols}, (if i.1 ∈ o.net.ads then c i.1 else 0) * w i
      = (o.net.ads.map fun a => c a * extend cols w a).sum := by
    intro c w
    have e1 : ∑ i : {x // x ∈ cols}, (if i.1 ∈ o.net.ads then c i.1 else 0) * w i
        = ∑ i : {x // x ∈ cols}, (fun x => (if x ∈ o.net.ads then c x else 0) * extend cols w x) i.1 := by
      refine Finset.sum_congr rfl fun i _ => ?_
      dsimp only
      unfold extend
      rw [dif_pos i.2]
    rw [e1, show _ = _ from sum_cols (cols := cols) (siteCols_nodup h.ready.parse) fun x => (if x ∈ o.net.ads then c x else 0) * extend cols w x]
    show ((o.net.sites ++ o.net.ads).map _).sum = _
    rw [List.map_append, List.sum_append, sum_map_zero, zero_add]
    · congr 1
      apply List.map_congr_left
      intro a ha
      rw [if_pos ha]
    · intro s hs
      rw [if_neg (sites_disjoint h.ready.parse s hs), zero_mul]
  refine ⟨extend cols y, ⟨hph.kf, hph.kr, hph.gas, hph.liq, ?_⟩, ?_, ?_⟩
  · intro x hx
    rw [hcov y y1 x hx]
    unfold extend
    rw [dif_pos hx]
    exact y2 _
  · rw [hderiv y y1, y4]
    congr 1
    rw [List.map_congr_left (g := fun _ => (0 : ℝ)) fun a _ => hz a, List.map_const']
  · intro c hc
    have := y3 (fun i => if i.1 ∈ o.net.ads then c i.1 else 0) (by
      intro z hz
      rw [hcols]
      have := hc _ _ (hderiv z hz)
      rwa [hzip] at this)
    rw [hcols, hcols] at this
    rw [this]
    congr 1
    apply List.map_congr_left
    intro a ha
    rw [show extend cols (fun i => coverage o.net total v0 i.1) a = _ from extend_of a (hads a ha)]
    unfold coverage
    rw [if_pos ha]

/-- So every network with rate constants, pressures, concentrations and totals that are not negative
has a physical steady state. -/
theorem C122_some_partial (o : MFOwner ℝ) (total P C : Str → ℝ) (kf kr : List ℝ) (κf κr : Str → ℝ)
    (h : FlowOk o total P C kf kr κf κr) (hkf : ∀ k ∈ kf, 0 ≤ k) (hkr : ∀ k ∈ kr, 0 ≤ k)
    (hP : ∀ g ∈ o.net.gas, 0 ≤ P g) (hC : ∀ g ∈ o.net.liq, 0 ≤ C g) (hs : ∀ s ∈ o.net.sites, 0 ≤ total s) :
    ∃ v : Str → ℝ, (∀ a ∈ o.net.ads, 0 ≤ v a) ∧
      (∀ s ∈ o.net.sites, ((o.net.ads.filter fun a => OnSite a s).map v).sum ≤ total s) ∧
      steadyStateFunction o (kf, kr) (o.net.ads.map v) = .ok (List.replicate o.net.ads.length 0) := by
  obtain ⟨v, hv, h1, -⟩ := C122_exists_partial o total P C kf kr κf κr h (fun _ => 0) ⟨hkf, hkr, hP, hC, by
    intro x hx
    unfold coverage
    split
    · exact le_rfl
    · rename_i hn
      rw [sum_map_zero _ _ fun _ _ => rfl, sub_zero]
      rcases List.mem_append.mp hx with e | e
      · exact hs x e
      · exact absurd e hn⟩
  refine ⟨v, fun a ha => ?_, fun s hs => ?_, h1⟩
  · have := hv.theta a (List.mem_append_right _ ha)
    unfold coverage at this
    rwa [if_pos ha] at this
  · have := hv.theta s (List.mem_append_left _ hs)
    unfold coverage at this
    rw [if_neg (sites_disjoint h.ready.parse s hs)] at this
    linarith

/-- In particular with the rate constants computed from energies at a positive temperature, by transition state or by collision theory. -/
theorem C122_computed_partial (o : MFOwner ℝ) (total P C : Str → ℝ) (h : Ready o total P C)
    (hc : ∀ states ∈ o.net.rxns, RateClean states) (hone : ∀ a ∈ o.net.ads, ∀ states ∈ o.net.rxns, OneSided a states)
    (hn : ∀ a ∈ o.net.ads, ∀ f, chemFormula a = .ok f → f.nsite = 1)
    (ro : RateOwner) (hro : ro.rxns = o.rxns) (hT : 0 < ro.T) (algo : RateAlgo) (rel : RelDict ℝ) (k : List ℝ × List ℝ)
    (hk : rateConstants ro algo rel = .ok k)
    (hP : ∀ g ∈ o.net.gas, 0 ≤ P g) (hC : ∀ g ∈ o.net.liq, 0 ≤ C g) (hs : ∀ s ∈ o.net.sites, 0 ≤ total s) :
    ∃ v : Str → ℝ, (∀ a ∈ o.net.ads, 0 ≤ v a) ∧
      (∀ s ∈ o.net.sites, ((o.net.ads.filter fun a => OnSite a s).map v).sum ≤ total s) ∧
      steadyStateFunction o k (o.net.ads.map v) = .ok (List.replicate o.net.ads.length 0) := by
  obtain ⟨kf, kr⟩ := k
  obtain ⟨-, -, κf, κr, hκf, hκr⟩ := kOk_rateConstants hk
  rw [hro] at hκf hκr
  obtain ⟨p1, p2⟩ := rateConstants_pos hT hk
  exact C122_some_partial o total P C kf kr κf κr ⟨h, hc, hκf, hκr, hone, hn⟩ (fun k hk => (p1 k hk).le)
    (fun k hk => (p2 k hk).le) hP hC hs

/-! ### examples -/

/-- CO oxidation with the rate constants of its energies at 450 K has a physical steady state. -/
example : ∃ (k : List ℝ × List ℝ) (v : Str → ℝ), 0 ≤ v (str! "CO_s") ∧ 0 ≤ v (str! "O_s") ∧ v (str! "CO_s") + v (str! "O_s") ≤ 1 ∧
    steadyStateFunction exDriveMF k [v (str! "CO_s"), v (str! "O_s")] = .ok [0, 0] := by
  obtain ⟨r, hr⟩ := (C12_complete_tables exDriveE exDriveMF.rxns exDriveMF.net exNet_ok).1 (by
    have hk : keys exDriveE = [str! "CO_g", str! "O2_g", str! "CO2_g", str! "*_s", str! "CO_s", str! "O_s",
      str! "CO-O_2s", str! "O-O_2s"] := rfl
    rw [hk]
    decide)
  obtain ⟨G, hG⟩ := exists_extends exDriveE
  obtain ⟨kf, kr, -, -, hk, -⟩ := C85_direction_partial exDriveMF _ _ _ exDrive_ready exFlow_clean
    (fun st hst => plainSites_of ((by decide : ∀ st ∈ exNet.rxns, plainSitesB st = true) st hst))
    (fun _ => 1 / 4) exDrive_positive exDriveE G hG ⟨exRxns, 450, [], 0, 0, false⟩ rfl (by norm_num) r hr
  obtain ⟨v, h1, h2, h3⟩ := C122_computed_partial exDriveMF _ _ _ exDrive_ready exFlow_clean exFlow_one exFlow_nsite
    ⟨exRxns, 450, [], 0, 0, false⟩ rfl (by norm_num) _ _ (kf, kr) hk (fun _ _ => zero_le_one) (fun _ _ => zero_le_one)
    (fun _ _ => zero_le_one)
  have e : exDriveMF.net.ads = [str! "CO_s", str! "O_s"] := by decide
  have e1 : exDriveMF.net.sites = [str! "*_s"] := by decide
  have f1 : [str! "CO_s", str! "O_s"].filter (fun a => decide (OnSite a (str! "*_s"))) = [str! "CO_s", str! "O_s"] := by
    decide
  rw [e] at h1 h2 h3
  rw [e1] at h2
  have h2 := h2 (str! "*_s") (by simp)
  rw [f1] at h2
  exact ⟨(kf, kr), v, h1 _ (by simp), h1 _ (by simp), by simpa using h2, h3⟩

/-- The isomerisation conserves the amount of the two adsorbates together; so there is a steady state
with half of the sites covered, as at the beginning. -/
example : ConservedAmount exIsoMF ([1], [1]) (fun _ => 1) ∧ ∃ v : Str → ℝ, v (str! "COH_s") + v (str! "HCO_s") = 1 / 2 ∧
    0 ≤ v (str! "COH_s") ∧ 0 ≤ v (str! "HCO_s") ∧
    steadyStateFunction exIsoMF ([1], [1]) [v (str! "COH_s"), v (str! "HCO_s")] = .ok [0, 0] := by
  have e : exIsoMF.net.ads = [str! "COH_s", str! "HCO_s"] := by decide
  have e1 : exIsoMF.net.siteCols = [str! "*_s", str! "COH_s", str! "HCO_s"] := by decide
  have f1 : [str! "COH_s", str! "HCO_s"].filter (fun a => decide (OnSite a (str! "*_s"))) = [str! "COH_s", str! "HCO_s"] := by
    decide
  have hc : ConservedAmount exIsoMF ([1], [1]) (fun _ => 1) := by
    intro v derivs hd
    rw [exIso_ok.derivs] at hd
    cases hd
    have := flow_totals exIso_ok.ready exIso_ok.clean exIso_ok.kf exIso_ok.kr exIso_ok.one exIso_ok.nsite
      (coverage exIsoMF.net (fun _ => 1) v) (str! "*_s") (by decide)
    have h0 : flow exIsoMF.net exIsoMF.rxns (fun _ => 0) (fun _ => 0) (fun _ => 1) (fun _ => 1)
        (coverage exIsoMF.net (fun _ => 1) v) (str! "*_s") = 0 := by
      unfold flow
      have h1 : ∃ st, exIsoMF.net.rxns = [st] ∧ produced (str! "*_s") st = 0 := ⟨_, rfl, by decide⟩
      obtain ⟨st, h1, h2⟩ := h1
      rw [h1, show exIsoMF.rxns = [str! "HCO_s -> COH_s"] from rfl]
      simp [h2]
    rw [h0, add_zero, e, f1] at this
    rw [e]
    simpa using this
  refine ⟨hc, ?_⟩
  obtain ⟨v, h1, h2, h3⟩ := C122_exists_partial _ _ _ _ _ _ _ _ exIso_ok (fun _ => 1 / 4) ⟨by simp, by simp, fun _ _ => le_rfl, fun _ _ => le_rfl, by
    rw [e1]
    unfold coverage
    rw [e]
    intro x hx
    simp only [List.mem_cons, List.not_mem_nil, or_false] at hx
    rcases hx with rfl | rfl | rfl
    · rw [if_neg (by decide), f1]; norm_num
    · rw [if_pos (by decide)]; norm_num
    · rw [if_pos (by decide)]; norm_num⟩
  have h3 := h3 _ hc
  have h4 := h1.theta
  unfold coverage at h4
  rw [e] at h2 h3 h4
  rw [e1] at h4
  refine ⟨v, by norm_num at h3; linarith, ?_, ?_, h2⟩
  · have := h4 (str! "COH_s") (by simp)
    rwa [if_pos (by decide)] at this
  · have := h4 (str! "HCO_s") (by simp)
    rwa [if_pos (by decide)] at this

end Verif
