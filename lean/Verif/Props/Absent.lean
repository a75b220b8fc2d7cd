import Verif.Props.DrivingForce
/-
Property C86: what is not there is not consumed.
-/
namespace Verif
open Dict
set_option linter.unusedSectionVars false
variable {K : Type} [Field K] [LinearOrder K] [IsStrictOrderedRing K]

/-! ### helpers -/

theorem stateActivity_nonneg {P C θ : Str → K} {fs : List Formula} (h : ∀ f ∈ fs, 0 ≤ specAct P C θ f) :
    0 ≤ stateActivity P C θ fs := by
  unfold stateActivity
  induction fs with
  | nil => simp
  | cons f fs ih =>
    rw [List.map_cons, List.prod_cons]
    exact mul_nonneg (pow_nonneg (h f (by simp)) _) (ih fun g hg => h g (by simp [hg]))

theorem stateActivity_zero {P C θ : Str → K} {fs : List Formula} {f : Formula} (hf : f ∈ fs)
    (h0 : specAct P C θ f = 0) (hs : 0 < f.stoich) : stateActivity P C θ fs = 0 := by
  unfold stateActivity
  rw [List.prod_eq_zero_iff]
  exact List.mem_map.mpr ⟨f, hf, by rw [h0, zero_pow (by omega)]⟩

/-- A name with a positive total coefficient occurs in a formula with a positive one. -/
theorem totalCoef_pos {x : Str} {fs : List Formula} (h : 0 < totalCoef x fs) :
    ∃ f ∈ fs, f.speciesSite = x ∧ 0 < f.stoich := by
  by_contra hcon
  push Not at hcon
  have : totalCoef x fs = 0 := by
    unfold totalCoef
    apply List.sum_eq_zero
    intro m hm
    obtain ⟨f, hf, rfl⟩ := List.mem_map.mp hm
    rw [List.mem_filter] at hf
    have := hcon f hf.1 (by simpa using hf.2)
    omega
  omega

theorem sum_zipWith_nonneg {α β : Type} (f : α → β → K) (l : List α) (r : List β)
    (h : ∀ p ∈ l.zip r, 0 ≤ f p.1 p.2) : 0 ≤ (List.zipWith f l r).sum := by
  induction l generalizing r with
  | nil => simp
  | cons a l ih =>
    cases r with
    | nil => simp
    | cons b r =>
      rw [List.zipWith_cons_cons, List.sum_cons]
      exact add_nonneg (h (a, b) (by simp)) (ih r fun p hp => h p (by simp [hp]))

theorem mem_zip_map {α β : Type} {f : α → β} {l : List α} {a : α} {d : β} (h : (a, d) ∈ l.zip (l.map f)) :
    a ∈ l ∧ d = f a := by
  induction l with
  | nil => simp at h
  | cons x l ih =>
    rw [List.map_cons, List.zip_cons_cons, List.mem_cons] at h
    rcases h with h | h
    · cases h; simp
    · obtain ⟨h1, h2⟩ := ih h
      exact ⟨by simp [h1], h2⟩

/-! ## C86 -/

/-- PhysicalState conditions: rate constants, pressures, concentrations and coverages (free sites too)
are not negative. -/
structure PhysicalState (o : MFOwner K) (total P C v : Str → K) (kf kr : List K) : Prop where
  kf : ∀ k ∈ kf, 0 ≤ k
  kr : ∀ k ∈ kr, 0 ≤ k
  gas : ∀ g ∈ o.net.gas, 0 ≤ P g
  liq : ∀ g ∈ o.net.liq, 0 ≤ C g
  theta : ∀ x ∈ o.net.siteCols, 0 ≤ coverage o.net total v x

/-- The activity of the species named `x` is zero. -/
def Absent (o : MFOwner K) (total P C v : Str → K) (x : Str) : Prop :=
  (x ∈ o.net.gas ∧ P x = 0) ∨ (x ∈ o.net.liq ∧ C x = 0) ∨ (x ∈ o.net.siteCols ∧ coverage o.net total v x = 0)

theorem clean_act {o : MFOwner K} {total P C v : Str → K} {kf kr : List K} (h : Ready o total P C)
    (hph : PhysicalState o total P C v kf kr) {f : Formula}
    (hf : OccursIn o.rxns f) (h1 : specKind f.species f.site ≠ .ts)
    (h2 : specKind f.species f.site = .empty → f.speciesSite = str! "*_" ++ f.site) :
    0 ≤ specAct P C (coverage o.net total v) f ∧
      (Absent o total P C v f.speciesSite → specAct P C (coverage o.net total v) f = 0) := by
  obtain ⟨l1, l2, l3⟩ := listed_iff h.parse hf
  have once := C08_listed_exactly_once _ _ h.parse f hf
  have hgas : f.speciesSite ∈ o.net.gas ↔ specKind f.species f.site = .gas :=
    (once .gas).trans ⟨fun x => x.1, fun x => ⟨x, by decide⟩⟩
  have hliq : f.speciesSite ∈ o.net.liq ↔ specKind f.species f.site = .liquid :=
    (once .liquid).trans ⟨fun x => x.1, fun x => ⟨x, by decide⟩⟩
  unfold specAct Absent
  cases hk : specKind f.species f.site with
  | gas =>
    refine ⟨hph.gas _ (hgas.mpr hk), ?_⟩
    rintro (⟨-, h⟩ | ⟨h, -⟩ | ⟨h, -⟩)
    · exact h
    · rw [hliq, hk] at h; cases h
    · rcases l3 h with e | e <;> rw [hk] at e <;> cases e
  | liquid =>
    refine ⟨hph.liq _ (hliq.mpr hk), ?_⟩
    rintro (⟨h, -⟩ | ⟨-, h⟩ | ⟨h, -⟩)
    · rw [hgas, hk] at h; cases h
    · exact h
    · rcases l3 h with e | e <;> rw [hk] at e <;> cases e
  | ts => exact absurd hk h1
  | ads =>
    refine ⟨hph.theta _ (l2 hk), ?_⟩
    rintro (⟨h, -⟩ | ⟨h, -⟩ | ⟨-, h⟩)
    · rw [hgas, hk] at h; cases h
    · rw [hliq, hk] at h; cases h
    · exact h
  | empty =>
    have hne : f.site ≠ str! "g" ∧ f.site ≠ str! "l" := by
      constructor <;> intro e <;> simp [specKind, e] at hk
    have hm : f.speciesSite ∈ o.net.siteCols := by
      unfold Network.siteCols
      rw [List.mem_append, C08_site_names _ _ h.parse]
      exact Or.inl ⟨f, hf, hne.1, hne.2, h2 hk⟩
    refine ⟨hph.theta _ hm, ?_⟩
    rintro (⟨h, -⟩ | ⟨h, -⟩ | ⟨-, h⟩)
    · rw [hgas, hk] at h; cases h
    · rw [hliq, hk] at h; cases h
    · exact h

/-- Under physical conditions all rates are nonnegative, a reaction whose first (last) state needs
something absent has no forward (reverse) rate, and on balance the reactions never consume what is
absent: neither an adsorbate, nor a free site, nor a gas or liquid. Missing: end states with
transition states or starred species (as in C25). -/
theorem C86_absent_partial (o : MFOwner K) (total P C : Str → K) (h : Ready o total P C)
    (hc : ∀ states ∈ o.net.rxns, RateClean states) (v : Str → K) (kf kr : List K) (κf κr : Str → K)
    (hkf : KOk o.rxns kf κf) (hkr : KOk o.rxns kr κr) (hph : PhysicalState o total P C v kf kr) :
    ∃ rfs rrs net, getRates o (kf, kr) (o.net.ads.map v) = .ok (rfs, rrs) ∧
      getNetRates o (kf, kr) (o.net.ads.map v) = .ok net ∧ net.length = o.rxns.length ∧
      (∀ x ∈ rfs, 0 ≤ x) ∧ (∀ x ∈ rrs, 0 ≤ x) ∧
      (∀ i (hi : i < o.rxns.length) states is fs, eqnFormulas o.rxns[i] = .ok states →
        states.head? = some is → states.getLast? = some fs → ∀ x, Absent o total P C v x →
        (0 < totalCoef x is → rfs[i]? = some 0) ∧ (0 < totalCoef x fs → rrs[i]? = some 0)) ∧
      ∀ x, Absent o total P C v x → 0 ≤ production o.net net x := by
  obtain ⟨rfs, rrs, h1, h2, h3, h4⟩ := getRates_ok h hc v kf kr κf κr hkf hkr
  have hl := length_rxns h.parse
  have hstep : ∀ i (hi : i < o.rxns.length), ∃ st is fs, eqnFormulas o.rxns[i] = .ok st ∧
      o.net.rxns[i]? = some st ∧ st.head? = some is ∧ st.getLast? = some fs ∧
      ∃ a b, rfs[i]? = some a ∧ rrs[i]? = some b ∧ 0 ≤ a ∧ 0 ≤ b ∧
        ∀ x, Absent o total P C v x → (0 < totalCoef x is → a = 0) ∧ (0 < totalCoef x fs → b = 0) := by
    intro i hi
    obtain ⟨st, is, fs, g1, g2, -, g4, g5, o1, o2⟩ := states_ok h.parse hi
    obtain ⟨ra, rb⟩ := h4 i hi st is fs g1 g4 g5
    have hcl := clean_at hc g2
    have hform : ∀ gs, (st.head? = some gs ∨ st.getLast? = some gs) → (∀ f ∈ gs, OccursIn o.rxns f) →
        ∀ f ∈ gs, _ := fun gs hgs hocc f hf => clean_act h hph (hocc f hf) (hcl.1.1 gs hgs f hf).1 (hcl.1.2 gs hgs f hf)
    have k1 : 0 ≤ κf o.rxns[i] := hph.kf _ (List.mem_of_getElem? (hkf.get i hi))
    have k2 : 0 ≤ κr o.rxns[i] := hph.kr _ (List.mem_of_getElem? (hkr.get i hi))
    refine ⟨st, is, fs, g1, g2, g4, g5, _, _, ra, rb,
      mul_nonneg k1 (stateActivity_nonneg fun f hf => (hform is (Or.inl g4) o1 f hf).1),
      mul_nonneg k2 (stateActivity_nonneg fun f hf => (hform fs (Or.inr g5) o2 f hf).1), ?_⟩
    intro x hx
    constructor
    · intro hp
      obtain ⟨f, hf, rfl, hs⟩ := totalCoef_pos hp
      rw [stateActivity_zero hf ((hform is (Or.inl g4) o1 f hf).2 hx) hs, mul_zero]
    · intro hp
      obtain ⟨f, hf, rfl, hs⟩ := totalCoef_pos hp
      rw [stateActivity_zero hf ((hform fs (Or.inr g5) o2 f hf).2 hx) hs, mul_zero]
  refine ⟨rfs, rrs, List.zipWith (· - ·) rfs rrs, h1, ?_, by simp [h2, h3], ?_, ?_, ?_, ?_⟩
  · unfold getNetRates; rw [h1]; rfl
  · intro x hx
    obtain ⟨i, hi, rfl⟩ := List.mem_iff_getElem.mp hx
    obtain ⟨st, is, fs, -, -, -, -, a, b, ra, rb, pa, -⟩ := hstep i (by omega)
    rw [List.getElem?_eq_getElem hi] at ra
    rw [Option.some.inj ra]; exact pa
  · intro x hx
    obtain ⟨i, hi, rfl⟩ := List.mem_iff_getElem.mp hx
    obtain ⟨st, is, fs, -, -, -, -, a, b, ra, rb, -, pb, -⟩ := hstep i (by omega)
    rw [List.getElem?_eq_getElem hi] at rb
    rw [Option.some.inj rb]; exact pb
  · intro i hi st is fs g1 g4 g5 x hx
    obtain ⟨st', is', fs', e1, -, e4, e5, a, b, ra, rb, -, -, hz⟩ := hstep i hi
    rw [g1] at e1; cases e1
    rw [g4] at e4; cases e4
    rw [g5] at e5; cases e5
    exact ⟨fun hp => by rw [ra, (hz x hx).1 hp], fun hp => by rw [rb, (hz x hx).2 hp]⟩
  · intro x hx
    unfold production
    apply sum_zipWith_nonneg
    intro p hpm
    obtain ⟨i, hi, rfl⟩ := List.mem_iff_getElem.mp hpm
    rw [List.length_zip, List.length_zipWith] at hi
    obtain ⟨st, is, fs, -, g2, g4, g5, a, b, ra, rb, pa, pb, hz⟩ := hstep i (by omega)
    rw [List.getElem?_eq_getElem (by omega)] at g2 ra rb
    rw [List.getElem_zip, List.getElem_zipWith, Option.some.inj g2, Option.some.inj ra, Option.some.inj rb]
    dsimp only
    unfold produced
    rw [g4, g5]
    simp only [stateCoef]
    rcases Nat.eq_zero_or_pos (totalCoef x is) with z1 | z1
    · rcases Nat.eq_zero_or_pos (totalCoef x fs) with z2 | z2
      · rw [z1, z2]; simp
      · rw [z1, (hz x hx).2 z2]
        push_cast
        rw [sub_zero, sub_zero]
        exact mul_nonneg (Nat.cast_nonneg _) pa
    · rw [(hz x hx).1 z1]
      rcases Nat.eq_zero_or_pos (totalCoef x fs) with z2 | z2
      · rw [z2]
        push_cast
        have : (0 - (totalCoef x is : K)) * (0 - b) = (totalCoef x is : K) * b := by ring
        rw [this]
        exact mul_nonneg (Nat.cast_nonneg _) pb
      · rw [(hz x hx).2 z2]; simp

/-- So the coverage equations cannot lead out of the physical range: at a coverage of zero the
derivative is not negative, at a full site the derivatives of its adsorbates do not add to more
than zero, and the turnover frequency of an absent gas or liquid is not negative. Missing: moreover
what C26 and C27 miss. -/
theorem C86_boundary_partial (o : MFOwner K) (total P C : Str → K) (h : Ready o total P C)
    (hc : ∀ states ∈ o.net.rxns, RateClean states) (v : Str → K) (kf kr : List K) (κf κr : Str → K)
    (hkf : KOk o.rxns kf κf) (hkr : KOk o.rxns kr κr) (hph : PhysicalState o total P C v kf kr)
    (hone : ∀ a ∈ o.net.ads, ∀ states ∈ o.net.rxns, OneSided a states)
    (hn : ∀ a ∈ o.net.ads, ∀ f, chemFormula a = .ok f → f.nsite = 1) :
    ∃ derivs tofs, steadyStateFunction o (kf, kr) (o.net.ads.map v) = .ok derivs ∧
      getTof o (kf, kr) (o.net.ads.map v) = .ok tofs ∧
      derivs.length = o.net.ads.length ∧ tofs.length = (o.net.gas ++ o.net.liq).length ∧
      (∀ p ∈ o.net.ads.zip derivs, v p.1 = 0 → 0 ≤ p.2) ∧
      (∀ s ∈ o.net.sites, total s = ((o.net.ads.filter fun a => OnSite a s).map v).sum →
        (((o.net.ads.zip derivs).filter fun x => OnSite x.1 s).map (·.2)).sum ≤ 0) ∧
      (∀ p ∈ (o.net.gas ++ o.net.liq).zip tofs, Absent o total P C v p.1 → 0 ≤ p.2) := by
  obtain ⟨rfs, rrs, net, -, h2, h3, -, -, -, h4⟩ := C86_absent_partial o total P C h hc v kf kr κf κr hkf hkr hph
  obtain ⟨net', e1, e2, e3⟩ := C26_derivatives_partial o total P C h hc v kf kr κf κr hkf hkr hone
  rw [h2] at e1; cases e1
  obtain ⟨net', derivs', e1, e4, e5⟩ := C27_sites_partial o total P C h hc v kf kr κf κr hkf hkr hone hn
  rw [h2] at e1; cases e1
  rw [e3] at e4; cases e4
  refine ⟨_, _, e3, (C69_turnover o (kf, kr) _ net h.parse h2 h3).1, by simp, by simp, ?_, ?_, ?_⟩
  · rintro ⟨a, d⟩ hp hz
    obtain ⟨hz', rfl⟩ := mem_zip_map hp
    exact h4 _ (Or.inr (Or.inr ⟨by unfold Network.siteCols; exact List.mem_append_right _ hz', by
      unfold coverage; rw [if_pos hz']; exact hz⟩))
  · intro s hs hfull
    have := e5 s hs
    have hp := h4 s (Or.inr (Or.inr ⟨by unfold Network.siteCols; exact List.mem_append_left _ hs, by
      unfold coverage
      rw [if_neg (sites_disjoint h.parse s hs), hfull, sub_self]⟩))
    linarith
  · rintro ⟨a, d⟩ hp hz
    obtain ⟨hz', rfl⟩ := mem_zip_map hp
    exact h4 _ hz

/-- CO oxidation on a surface with no oxygen adsorbed and no oxygen in the gas phase. -/
def exAbsentMF : MFOwner ℚ :=
  ⟨exRxns, exNet, [(str! "*_s", 1)], [(str! "CO_g", 1), (str! "O2_g", 0), (str! "CO2_g", 1)], []⟩

theorem exAbsent_ready : Ready exAbsentMF (fun _ => 1) (fun g => if g = str! "O2_g" then 0 else 1) (fun _ => 1) :=
  ⟨exNet_ok, by decide +kernel, by decide +kernel, by decide +kernel⟩

theorem exAbsent_physical : PhysicalState exAbsentMF (fun _ => 1) (fun g => if g = str! "O2_g" then 0 else 1) (fun _ => 1)
    (fun a => if a = str! "O_s" then 0 else 1) [2, 3, 5] [7, 11, 13] :=
  ⟨by decide +kernel, by decide +kernel, by decide +kernel, by decide +kernel, by decide +kernel⟩

example : Absent exAbsentMF (fun _ => 1) (fun g => if g = str! "O2_g" then 0 else 1) (fun _ => 1)
    (fun a => if a = str! "O_s" then 0 else 1) (str! "O_s") := by
  unfold Absent; decide +kernel

example : steadyStateFunction exAbsentMF ([2, 3, 5], [7, 11, 13]) [1, 0] = .ok [-7, 0] ∧
    getTof exAbsentMF ([2, 3, 5], [7, 11, 13]) [1, 0] = .ok [0, 7, 0] := by decide +kernel

example : ∃ derivs tofs, steadyStateFunction exAbsentMF ([2, 3, 5], [7, 11, 13])
      (exAbsentMF.net.ads.map fun a => if a = str! "O_s" then 0 else 1) = .ok derivs ∧
    getTof exAbsentMF ([2, 3, 5], [7, 11, 13]) (exAbsentMF.net.ads.map fun a => if a = str! "O_s" then 0 else 1)
      = .ok tofs := by
  obtain ⟨κf, hf⟩ := kOk_nodup (rxns := exAbsentMF.rxns) (k := ([2, 3, 5] : List ℚ)) (by decide) (by decide)
  obtain ⟨κr, hr⟩ := kOk_nodup (rxns := exAbsentMF.rxns) (k := ([7, 11, 13] : List ℚ)) (by decide) (by decide)
  obtain ⟨d, t, h1, h2, -⟩ := C86_boundary_partial exAbsentMF _ _ _ exAbsent_ready exMF_clean _ _ _ _ _ hf hr
    exAbsent_physical exMF_oneSided (by
      have : ∀ a ∈ exNet.ads, (match chemFormula a with | .ok f => decide (f.nsite = 1) | .error _ => true) = true := by
        decide
      intro a ha f hf
      have := this a ha
      rw [hf] at this
      simpa using this)
  exact ⟨d, t, h1, h2⟩

/-- An adsorbate that occurs only in an intermediate state is driven below zero. -/
theorem C86_intermediate_refuted :
    let rxns := [str! "HCO_s <-> COH_s -> OCH_s"]
    let o : MFOwner ℚ := ⟨rxns, netOf rxns, [(str! "*_s", 1)], [], []⟩
    Ready o (fun _ => 1) (fun _ => 0) (fun _ => 0) ∧
      PhysicalState o (fun _ => 1) (fun _ => 0) (fun _ => 0) (fun a => if a = str! "OCH_s" then 1 else 0) [1] [1] ∧
      o.net.ads = [str! "COH_s", str! "HCO_s", str! "OCH_s"] ∧
      steadyStateFunction o ([1], [1]) [0, 0, 1] = .ok [-1, 1, -1] := by
  refine ⟨⟨by decide, by decide +kernel, by decide +kernel, by decide +kernel⟩,
    ⟨by decide +kernel, by decide +kernel, by decide +kernel, by decide +kernel, by decide +kernel⟩, by decide,
    by decide +kernel⟩

/-- An adsorbate on two sites is counted once, so its dissociation on a full surface raises the sum
of the coverages above the total. -/
theorem C86_bridge_refuted :
    let rxns := [str! "CO_2s -> C_s + O_s"]
    let o : MFOwner ℚ := ⟨rxns, netOf rxns, [(str! "*_s", 1)], [], []⟩
    Ready o (fun _ => 1) (fun _ => 0) (fun _ => 0) ∧
      PhysicalState o (fun _ => 1) (fun _ => 0) (fun _ => 0) (fun a => if a = str! "CO_2s" then 1 else 0) [1] [1] ∧
      o.net.ads = [str! "CO_2s", str! "C_s", str! "O_s"] ∧
      steadyStateFunction o ([1], [1]) [1, 0, 0] = .ok [-1, 1, 1] := by
  refine ⟨⟨by decide, by decide +kernel, by decide +kernel, by decide +kernel⟩,
    ⟨by decide +kernel, by decide +kernel, by decide +kernel, by decide +kernel, by decide +kernel⟩, by decide,
    by decide +kernel⟩

end Verif
