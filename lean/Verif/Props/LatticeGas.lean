import Verif.Props.GasEquilibrium
import Verif.Props.LatticeMean
import Verif.Props.LatticeMixing
/-
Property C129: the lattice model and the mean field model have the same equilibria, and at equilibrium the lattice is uncorrelated. The
engine is not modelled; what follows is about the jump process that the list of processes handed to it defines.
-/
namespace Verif
open Dict Classical
set_option linter.unusedSectionVars false

variable {S C : Type}

/-! ### specification -/

/-- Coverage of an element type: of the surface species and free sites that it stands for. -/
noncomputable def ownerCoverage (n : Network) (τ : Str → Str) (cov : Str → ℝ) (t : Str) : ℝ :=
  ((n.siteCols.filter fun x => τ x = t).map cov).sum

/-- The element types of a process definition are the surface species of the end states of its reaction. -/
structure Pictures (τ : Str → Str) (d : ProcDict C) : Prop where
  before : ∀ states is, eqnFormulas d.reaction = .ok states → states.head? = some is → d.before.Perm (surfaceTypes τ is)
  after : ∀ states fs, eqnFormulas d.reaction = .ok states → states.getLast? = some fs → d.after.Perm (surfaceTypes τ fs)
  gases : ∀ states is fs, eqnFormulas d.reaction = .ok states → states.head? = some is → states.getLast? = some fs →
    ∀ f ∈ is ++ fs, f.type ≠ .liquid ∧ (f.type = .gas → f.text = f.speciesSite ∧ f.stoich = 1)

/-- The process definitions of a lattice show the reactions of a mean field model, each reaction at least once, and each surface species
and free site has its own element type. -/
structure ShowsNetwork (o : MFOwner ℝ) (τ : Str → Str) (types : List Str) (ds : List (ProcDict C)) : Prop where
  own : ∀ x ∈ o.net.siteCols, ∀ y ∈ o.net.siteCols, τ x = τ y → x = y
  types : types.Perm (o.net.siteCols.map τ)
  pictures : ∀ d ∈ ds, Pictures τ d
  plain : ∀ d ∈ ds, d.redist = false ∧ WildSame d.before d.after
  all : ∀ r ∈ o.rxns, ∃ d ∈ ds, d.reaction = r

/-- The mean field model and the lattice have their constants and rates from the same energies, temperature and pressures, by either
theory. -/
structure SameRates (o : MFOwner ℝ) (P : Str → ℝ) (ro : RateOwner) (algo : RateAlgo) (rel : RelDict ℝ) (kf kr : List ℝ) : Prop where
  rxns : ro.rxns = o.rxns
  pressures : Extends P ro.pressures
  collision : algo = .CT → CollisionReady ro o.rxns
  constants : rateConstants ro algo rel = .ok (kf, kr)

/-! ### helpers -/

theorem ownerCoverage_own {n : Network} {τ : Str → Str} (hn : n.siteCols.Nodup)
    (hτ : ∀ x ∈ n.siteCols, ∀ y ∈ n.siteCols, τ x = τ y → x = y) (cov : Str → ℝ) {x : Str} (hx : x ∈ n.siteCols) :
    ownerCoverage n τ cov (τ x) = cov x := by
  unfold ownerCoverage
  have : n.siteCols.filter (fun y => τ y = τ x) = n.siteCols.filter (fun y => y = x) := by
    apply List.filter_congr
    intro y hy
    simp only [decide_eq_decide]
    exact ⟨fun e => hτ y hy x hx e, fun e => by rw [e]⟩
  rw [this]
  have h1 := List.Nodup.filter (fun y => decide (y = x)) hn
  have : n.siteCols.filter (fun y => y = x) = [x] := by
    rw [← List.perm_singleton]
    refine (List.perm_ext_iff_of_nodup h1 (by simp)).mpr ?_
    intro y
    simp only [List.mem_filter, decide_eq_true_eq, List.mem_singleton]
    exact ⟨fun e => e.2, fun e => ⟨e ▸ hx, e⟩⟩
  rw [this]
  simp

theorem type_gas_iff (f : Formula) : f.type = .gas ↔ specKind f.species f.site = .gas := by
  unfold Formula.type specKind
  split_ifs <;> simp_all

theorem type_liquid_iff (f : Formula) : f.type = .liquid ↔ specKind f.species f.site = .liquid := by
  unfold Formula.type specKind
  split_ifs <;> simp_all

theorem surface_listed {rxns : List Str} {n : Network} (h : parseNetwork rxns = .ok n) {f : Formula} (hf : OccursIn rxns f)
    (h1 : specKind f.species f.site ≠ .ts) (h2 : specKind f.species f.site = .empty → f.speciesSite = str! "*_" ++ f.site)
    (hg : f.type ≠ .gas) (hl : f.type ≠ .liquid) : f.speciesSite ∈ n.siteCols := by
  have hm := (clean_activity h hf h1 h2 (fun _ => 0) (fun _ => 0) (fun _ => 0)).1
  unfold allCols at hm
  rcases List.mem_append.mp hm with hm | hm
  · exact hm
  · obtain ⟨l1, -, -⟩ := listed_iff h hf
    rcases l1.mp hm with e | e
    · exact absurd ((type_gas_iff f).mpr e) hg
    · exact absurd ((type_liquid_iff f).mpr e) hl

theorem surfaceTypes_mem {τ : Str → Str} {fs : List Formula} {t : Str} (h : t ∈ surfaceTypes τ fs) :
    ∃ f ∈ fs, f.type ≠ .gas ∧ t = τ f.speciesSite := by
  unfold surfaceTypes at h
  obtain ⟨f, hf, ht⟩ := List.mem_flatMap.mp h
  by_cases hg : f.type = .gas
  · rw [if_pos hg] at ht; exact nomatch ht
  · rw [if_neg hg] at ht
    exact ⟨f, hf, hg, (List.mem_replicate.mp ht).2⟩

theorem exp_types {θ : Str → ℝ} {l : List Str} (h : ∀ t ∈ l, 0 < θ t) :
    Real.exp (-typesEnergy (fun t => -Real.log (θ t)) l / 1) = (l.map θ).prod := by
  unfold typesEnergy
  induction l with
  | nil => simp
  | cons t l ih =>
    rw [List.map_cons, List.sum_cons, List.map_cons, List.prod_cons, ← ih fun x hx => h x (by simp [hx]), div_one, div_one, neg_add, neg_neg,
      Real.exp_add, Real.exp_log (h t (by simp))]

theorem kmcRates_exist {ro : RateOwner} {algo : RateAlgo} {rel : RelDict ℝ} {types : List Str} {ds : List (ProcDict C)} {m : List Str}
    {procs : List (KProc ℝ C)} (h : getProcesses (latticeOwner ro algo rel types) ds [] = (.ok procs, m)) {d : ProcDict C} (hd : d ∈ ds) :
    d.reaction ∈ ro.rxns ∧ ∃ rf rr, kmcRates ro algo rel d.reaction = .ok (rf, rr) := by
  have hacc := (C51_accepted (latticeOwner ro algo rel types) ds []).mp (by rw [h]; rfl) d hd
  refine ⟨hacc.1, ?_⟩
  have := hacc.2.2.2
  change (kmcRates ro algo rel d.reaction).isOk = true at this
  cases hx : kmcRates ro algo rel d.reaction with
  | ok x => exact ⟨x.1, x.2, rfl⟩
  | error e => rw [hx] at this; exact nomatch this

/-- The rates of a process times the coverages of the element types it needs are those of its reaction. -/
theorem process_rates {o : MFOwner ℝ} {total P Q : Str → ℝ} (h : Ready o total P Q) (hc : ∀ states ∈ o.net.rxns, RateClean states)
    {ro : RateOwner} {algo : RateAlgo} {rel : RelDict ℝ} {kf kr : List ℝ} (hs : SameRates o P ro algo rel kf kr)
    {τ : Str → Str} (hτ : ∀ x ∈ o.net.siteCols, ∀ y ∈ o.net.siteCols, τ x = τ y → x = y) (v : Str → ℝ) {d : ProcDict C} (hp : Pictures τ d)
    {i : Nat} (hi : i < o.rxns.length) (hdi : d.reaction = o.rxns[i]) {rf rr : ℝ} (hr : kmcRates ro algo rel d.reaction = .ok (rf, rr)) :
    ∃ rfs rrs, getRates o (kf, kr) (o.net.ads.map v) = .ok (rfs, rrs) ∧ rfs.length = o.rxns.length ∧ rrs.length = o.rxns.length ∧
      rfs[i]? = some (rf * (d.before.map (ownerCoverage o.net τ (coverage o.net total v))).prod) ∧
      rrs[i]? = some (rr * (d.after.map (ownerCoverage o.net τ (coverage o.net total v))).prod) := by
  obtain ⟨rfs, rrs, g1, g2, g3, g4⟩ := C25_solver_constants_partial o total P Q h hc v ro hs.rxns algo rel kf kr hs.constants
  refine ⟨rfs, rrs, g1, g2, g3, ?_⟩
  obtain ⟨states, is, fs, s1, s2, -, s4, s5, s6, s7⟩ := states_ok h.parse hi
  obtain ⟨x', y', q1, q2, q3, q4⟩ := g4 i hi states is fs s1 s4 s5
  have hkc := constants_by hs.constants i (by rw [hs.rxns]; exact hi)
  simp only [hs.rxns] at hkc
  obtain ⟨x, y, k1, k2, k3⟩ := hkc
  rw [k2] at q1; cases q1
  rw [k3] at q2; cases q2
  have hcl : RateClean states := clean_at hc s2
  have hst : eqnFormulas d.reaction = .ok states := by rw [hdi]; exact s1
  have hdep : Depicts τ (ownerCoverage o.net τ (coverage o.net total v)) (coverage o.net total v) d := by
    refine ⟨hp.before, hp.after, hp.gases, ?_⟩
    intro states' is' fs' e1 e2 e3 f hf hg
    rw [hst] at e1; cases e1
    rw [s4] at e2; cases e2
    rw [s5] at e3; cases e3
    have hl := (hp.gases states is fs hst s4 s5 f hf).1
    refine ownerCoverage_own (siteCols_nodup h.parse) hτ _ ?_
    rcases List.mem_append.mp hf with hf | hf
    · exact surface_listed h.parse (s6 f hf) (hcl.1.1 is (Or.inl s4) f hf).1 (hcl.1.2 is (Or.inl s4) f hf) hg hl
    · exact surface_listed h.parse (s7 f hf) (hcl.1.1 fs (Or.inr s5) f hf).1 (hcl.1.2 fs (Or.inr s5) f hf) hg hl
  rw [q3, q4]
  rw [← hdi] at k1
  obtain ⟨u1, u2⟩ : rf * (d.before.map (ownerCoverage o.net τ (coverage o.net total v))).prod = x' * stateActivity P Q (coverage o.net total v) is ∧
      rr * (d.after.map (ownerCoverage o.net τ (coverage o.net total v))).prod = y' * stateActivity P Q (coverage o.net total v) fs := by
    cases algo with
    | TST =>
      exact C121_rates_partial ro rel P Q (coverage o.net total v) _ hs.pressures τ d hdep states is fs hst s4 s5 x' y' _ _ k1 hr
    | CT =>
      exact C121_collision_rates_partial ro rel P Q (coverage o.net total v) _ hs.pressures τ d hdep
        ⟨(hs.collision rfl).1, fun r hr => (hs.collision rfl).2 r (by rw [List.mem_singleton.mp hr, hdi]; exact List.getElem_mem hi)⟩
        states is fs hst s4 s5 x' y' _ _ k1 hr
    | other => exact nomatch k1
  rw [u1, u2]
  exact ⟨rfl, rfl⟩

theorem live_rate {o : MFOwner ℝ} {total P Q : Str → ℝ} (h : Ready o total P Q) (hc : ∀ states ∈ o.net.rxns, RateClean states)
    {ro : RateOwner} {algo : RateAlgo} {rel : RelDict ℝ} {kf kr : List ℝ} (hs : SameRates o P ro algo rel kf kr) {v : Str → ℝ}
    (hv : Live o total P Q kf kr v) {i : Nat} (hi : i < o.rxns.length) {rfs rrs : List ℝ}
    (hr : getRates o (kf, kr) (o.net.ads.map v) = .ok (rfs, rrs)) {x : ℝ} (hx : rfs[i]? = some x) : 0 < x := by
  obtain ⟨rfs', rrs', g1, -, -, g4⟩ := C25_solver_constants_partial o total P Q h hc v ro hs.rxns algo rel kf kr hs.constants
  rw [hr] at g1
  cases g1
  obtain ⟨states, is, fs, s1, s2, -, s4, s5, s6, s7⟩ := states_ok h.parse hi
  obtain ⟨k, -, q1, -, q3, -⟩ := g4 i hi states is fs s1 s4 s5
  rw [hx] at q3
  rw [Option.some.inj q3]
  exact mul_pos (hv.kf k (List.mem_of_getElem? q1)) (state_pos h.parse hv.act (clean_at hc s2) (Or.inl s4) s6)

theorem live_coverage {o : MFOwner ℝ} {total P Q : Str → ℝ} (h : Ready o total P Q) {kf kr : List ℝ} {v : Str → ℝ}
    (hv : Live o total P Q kf kr v) : ∀ x ∈ o.net.siteCols, 0 < coverage o.net total v x := by
  intro x hx
  have := hv.act x (by unfold allCols; exact List.mem_append_left _ hx)
  rwa [activity_site h.parse P Q _ hx] at this

theorem total_cover {o : MFOwner ℝ} {total P Q : Str → ℝ} (h : Ready o total P Q) (v : Str → ℝ) :
    (o.net.siteCols.map (coverage o.net total v)).sum = (o.net.sites.map total).sum := by
  have hp := h.parse
  have hσ : ∃ σ : Str → Str, ∀ a ∈ o.net.ads, OnSite a (σ a) ∧ σ a ∈ o.net.sites := by
    refine ⟨fun a => match siteNameOf a with | .ok s => s | .error _ => [], ?_⟩
    intro a ha
    obtain ⟨s, hs, hon⟩ := ads_onSite hp ha
    have e : siteNameOf a = .ok s := hon
    dsimp only
    rw [e]
    exact ⟨hon, hs⟩
  obtain ⟨σ, hσ⟩ := hσ
  have hsn : o.net.sites.Nodup := by
    have := siteCols_nodup hp
    unfold Network.siteCols at this
    exact (List.nodup_append.mp this).1
  unfold Network.siteCols
  rw [List.map_append, List.sum_append]
  have h1 : (o.net.ads.map (coverage o.net total v)).sum = (o.net.ads.map fun a => v a * (fun _ => (1 : ℝ)) (σ a)).sum := by
    congr 1
    apply List.map_congr_left
    intro a ha
    unfold coverage
    rw [if_pos ha, mul_one]
  rw [h1, ← sum_by_site hsn v (fun _ => 1) σ hσ, ← sum_map_add']
  congr 1
  apply List.map_congr_left
  intro s hs
  unfold coverage
  rw [if_neg (sites_disjoint hp s hs)]
  ring

theorem types_positive {o : MFOwner ℝ} {total P Q : Str → ℝ} (h : Ready o total P Q) (hc : ∀ states ∈ o.net.rxns, RateClean states)
    {τ : Str → Str} (hτ : ∀ x ∈ o.net.siteCols, ∀ y ∈ o.net.siteCols, τ x = τ y → x = y) {v : Str → ℝ}
    (hv : ∀ x ∈ o.net.siteCols, 0 < coverage o.net total v x) {d : ProcDict C} (hp : Pictures τ d) (hd : d.reaction ∈ o.rxns) :
    ∀ t ∈ d.before ++ d.after, 0 < ownerCoverage o.net τ (coverage o.net total v) t := by
  obtain ⟨i, hi, hdi⟩ := List.getElem_of_mem hd
  obtain ⟨states, is, fs, s1, s2, -, s4, s5, s6, s7⟩ := states_ok h.parse hi
  have hcl : RateClean states := clean_at hc s2
  have hst : eqnFormulas d.reaction = .ok states := by rw [← hdi]; exact s1
  intro t ht
  have hg := hp.gases states is fs hst s4 s5
  rcases List.mem_append.mp ht with ht | ht
  · obtain ⟨f, hf, h1, rfl⟩ := surfaceTypes_mem ((hp.before states is hst s4).mem_iff.mp ht)
    have hm := surface_listed h.parse (s6 f hf) (hcl.1.1 is (Or.inl s4) f hf).1 (hcl.1.2 is (Or.inl s4) f hf) h1 (hg f (by simp [hf])).1
    rw [ownerCoverage_own (siteCols_nodup h.parse) hτ _ hm]
    exact hv _ hm
  · obtain ⟨f, hf, h1, rfl⟩ := surfaceTypes_mem ((hp.after states fs hst s5).mem_iff.mp ht)
    have hm := surface_listed h.parse (s7 f hf) (hcl.1.1 fs (Or.inr s5) f hf).1 (hcl.1.2 fs (Or.inr s5) f hf) h1 (hg f (by simp [hf])).1
    rw [ownerCoverage_own (siteCols_nodup h.parse) hτ _ hm]
    exact hv _ hm

/-! ### theorems -/

/-- **C129** The mean field model stands still exactly where the processes of the lattice balance with the coverages as weights: the two
models have the same equilibria. Missing: liquids, redistribution processes, and constants that do not come from the solver. -/
theorem C129_equilibria_partial (o : MFOwner ℝ) (total P Q : Str → ℝ) (h : Ready o total P Q)
    (hc : ∀ states ∈ o.net.rxns, RateClean states) (ro : RateOwner) (algo : RateAlgo) (rel : RelDict ℝ) (kf kr : List ℝ)
    (hs : SameRates o P ro algo rel kf kr) (types : List Str) (ds : List (ProcDict C)) (procs : List (KProc ℝ C)) (m : List Str)
    (hprocs : getProcesses (latticeOwner ro algo rel types) ds [] = (.ok procs, m)) (τ : Str → Str) (hsh : ShowsNetwork o τ types ds)
    (place : C → Int → List (List S)) (hplace : ∀ x b, ∀ a ∈ place x b, a.Nodup) (v : Str → ℝ) (hv : Live o total P Q kf kr v) :
    Standstill o (kf, kr) v ↔ BalancedLattice (latticeOwner ro algo rel types) 1
      (fun t => -Real.log (ownerCoverage o.net τ (coverage o.net total v) t)) place ds procs := by
  have hpos := live_coverage h hv
  set θ := ownerCoverage o.net τ (coverage o.net total v) with hθ
  have hmem : ∀ d ∈ ds, d.reaction ∈ o.rxns := fun d hd => hs.rxns ▸ (kmcRates_exist hprocs hd).1
  have htp : ∀ d ∈ ds, ∀ t ∈ d.before ++ d.after, 0 < θ t := fun d hd => types_positive h hc hsh.own hpos (hsh.pictures d hd) (hmem d hd)
  have hex : ∀ d ∈ ds, Real.exp (-typesEnergy (fun t => -Real.log (θ t)) d.before / 1) = (d.before.map θ).prod ∧
      Real.exp (-typesEnergy (fun t => -Real.log (θ t)) d.after / 1) = (d.after.map θ).prod := fun d hd =>
    ⟨exp_types fun t ht => htp d hd t (by simp [ht]), exp_types fun t ht => htp d hd t (by simp [ht])⟩
  have hprod : ∀ d ∈ ds, 0 < (d.before.map θ).prod ∧ 0 < (d.after.map θ).prod := fun d hd => by
    rw [← (hex d hd).1, ← (hex d hd).2]
    exact ⟨Real.exp_pos _, Real.exp_pos _⟩
  constructor
  · rintro ⟨rfs, rrs, hrs, rfl⟩
    refine ⟨⟨m, hprocs⟩, hplace, hsh.plain, ?_⟩
    intro d hd rf rr hr
    obtain ⟨i, hi, hdi⟩ := List.getElem_of_mem (hmem d hd)
    obtain ⟨a, b, g1, -, -, g4, g5⟩ := process_rates h hc hs hsh.own v (hsh.pictures d hd) hi hdi.symm hr
    rw [hrs] at g1
    cases g1
    obtain ⟨p1, p2⟩ := hprod d hd
    rw [g4] at g5
    have e := Option.some.inj g5
    have hpr := live_rate h hc hs hv hi hrs g4
    have hr1 : 0 < rf := (mul_pos_iff_of_pos_right p1).mp hpr
    have hr2 : 0 < rr := (mul_pos_iff_of_pos_right p2).mp (e ▸ hpr)
    refine ⟨hr1, hr2, ?_⟩
    rw [(hex d hd).1, (hex d hd).2, mul_comm, e, mul_comm]
  · intro hb
    obtain ⟨rfs, rrs, g1, g2, g3, -⟩ := C25_solver_constants_partial o total P Q h hc v ro hs.rxns algo rel kf kr hs.constants
    refine ⟨rfs, rrs, g1, ?_⟩
    apply List.ext_getElem (by omega)
    intro i i1 i2
    obtain ⟨d, hd, hdi⟩ := hsh.all _ (List.getElem_mem (show i < o.rxns.length by omega))
    obtain ⟨-, rf, rr, hr⟩ := kmcRates_exist hprocs hd
    obtain ⟨a, b, g1', -, -, g4, g5⟩ := process_rates h hc hs hsh.own v (hsh.pictures d hd) (by omega) hdi hr
    rw [g1] at g1'
    cases g1'
    obtain ⟨-, -, e⟩ := hb.rates d hd rf rr hr
    rw [(hex d hd).1, (hex d hd).2] at e
    rw [List.getElem?_eq_getElem i1] at g4
    rw [List.getElem?_eq_getElem i2] at g5
    rw [Option.some.inj g4, Option.some.inj g5, mul_comm, e, mul_comm]

/-- Share of an element type in all sites. -/
noncomputable def siteShare (n : Network) (τ : Str → Str) (cov : Str → ℝ) (t : Str) : ℝ :=
  ownerCoverage n τ cov t / (n.siteCols.map cov).sum

theorem types_sum {o : MFOwner ℝ} {total P Q : Str → ℝ} (h : Ready o total P Q) {τ : Str → Str} {types : List Str} {ds : List (ProcDict C)}
    (hsh : ShowsNetwork o τ types ds) (cov : Str → ℝ) :
    (types.map (ownerCoverage o.net τ cov)).sum = (o.net.siteCols.map cov).sum := by
  rw [(hsh.types.map _).sum_eq, List.map_map]
  congr 1
  apply List.map_congr_left
  intro x hx
  exact ownerCoverage_own (siteCols_nodup h.parse) hsh.own _ hx

theorem types_share_pos {o : MFOwner ℝ} {total P Q : Str → ℝ} (h : Ready o total P Q) {τ : Str → Str} {types : List Str} {ds : List (ProcDict C)}
    (hsh : ShowsNetwork o τ types ds) {cov : Str → ℝ} (hv : ∀ x ∈ o.net.siteCols, 0 < cov x) :
    ∀ t ∈ types, 0 < ownerCoverage o.net τ cov t := by
  intro t ht
  obtain ⟨x, hx, rfl⟩ := List.mem_map.mp (hsh.types.mem_iff.mp ht)
  rw [ownerCoverage_own (siteCols_nodup h.parse) hsh.own _ hx]
  exact hv x hx

theorem sum_over_types (types : List Str) (hn : types.Nodup) (f : Str → ℝ) : ∑ t : {t // t ∈ types}, f t.1 = (types.map f).sum := by
  rw [← List.sum_toFinset _ hn, ← Finset.sum_coe_sort types.toFinset f]
  refine Fintype.sum_equiv (Equiv.subtypeEquivRight fun t => by simp) _ _ ?_
  intro t
  rfl

theorem weight_product [Fintype S] {θ : Str → ℝ} {types : List Str} (h : ∀ t ∈ types, 0 < θ t) (c : Config S types) :
    latticeWeight 1 (fun t => -Real.log (θ t)) (fun s => (c s).1) = ∏ s, θ (c s).1 := by
  rw [latticeWeight_prod]
  refine Finset.prod_congr rfl fun s _ => ?_
  rw [div_one, neg_neg, Real.exp_log (h _ (c s).2)]

theorem weight_sum [Fintype S] [DecidableEq S] {θ : Str → ℝ} {types : List Str} (hn : types.Nodup) :
    ∑ c : Config S types, ∏ s, θ (c s).1 = (types.map θ).sum ^ Fintype.card S := by
  have := Finset.prod_univ_sum (fun _ : S => (Finset.univ : Finset {t // t ∈ types})) (fun _ t => θ t.1)
  rw [Fintype.piFinset_univ] at this
  rw [← this, Finset.prod_const, sum_over_types types hn θ]
  rfl

/-- **C129** At such an equilibrium, if every configuration can be reached from every other, the lattice becomes uncorrelated: from every
beginning and exponentially fast the probability of each configuration tends to the product of the shares of its element types, the
coverages of the mean field model. Missing: as above. -/
theorem C129_uncorrelated_partial [Fintype S] [DecidableEq S] (o : MFOwner ℝ) (total P Q : Str → ℝ) (h : Ready o total P Q)
    (hc : ∀ states ∈ o.net.rxns, RateClean states) (ro : RateOwner) (algo : RateAlgo) (rel : RelDict ℝ) (kf kr : List ℝ)
    (hs : SameRates o P ro algo rel kf kr) (types : List Str) (ds : List (ProcDict C)) (procs : List (KProc ℝ C)) (m : List Str)
    (hprocs : getProcesses (latticeOwner ro algo rel types) ds [] = (.ok procs, m)) (τ : Str → Str) (hsh : ShowsNetwork o τ types ds)
    (place : C → Int → List (List S)) (hplace : ∀ x b, ∀ a ∈ place x b, a.Nodup) (v : Str → ℝ) (hv : Live o total P Q kf kr v)
    (hst : Standstill o (kf, kr) v) (hre : AllReached place procs types) :
    ∃ l, 0 < l ∧ ∀ p, Master place procs types p → ∑ c, p 0 c = 1 → ∃ A, 0 ≤ A ∧ ∀ t, 0 ≤ t → ∀ c : Config S types,
      |p t c - ∏ s, siteShare o.net τ (coverage o.net total v) (c s).1| ≤ A * Real.exp (-l * t) := by
  have hb := (C129_equilibria_partial o total P Q h hc ro algo rel kf kr hs types ds procs m hprocs τ hsh place hplace v hv).mp hst
  have hn : types.Nodup := hsh.types.nodup_iff.mpr ((siteCols_nodup h.parse).map_on fun x hx y hy e => hsh.own x hx y hy e)
  have hpos := types_share_pos h hsh (live_coverage h hv)
  obtain ⟨l, hl, hf⟩ := C125_forgets_partial _ _ _ _ _ _ hb types hre
  refine ⟨l, hl, ?_⟩
  intro p hp h1
  obtain ⟨A, hA, hA'⟩ := hf p hp
  refine ⟨A, hA, ?_⟩
  intro t ht c
  have := hA' t ht c
  rw [h1, weight_product hpos] at this
  have hZ : (∑ c' : Config S types, latticeWeight 1 (fun t => -Real.log (ownerCoverage o.net τ (coverage o.net total v) t)) fun s => (c' s).1)
      = (o.net.siteCols.map (coverage o.net total v)).sum ^ Fintype.card S := by
    rw [← types_sum h hsh, ← weight_sum hn]
    exact Finset.sum_congr rfl fun c' _ => weight_product hpos c'
  rw [hZ] at this
  have he : (∏ s, siteShare o.net τ (coverage o.net total v) (c s).1)
      = 1 / (o.net.siteCols.map (coverage o.net total v)).sum ^ Fintype.card S * ∏ s, ownerCoverage o.net τ (coverage o.net total v) (c s).1 := by
    unfold siteShare
    rw [Finset.prod_div_distrib, Finset.prod_const, Finset.card_univ]
    ring
  rw [he]
  exact this

/-- **C129** And the coverage that the analysis records of an adsorbate tends, in the mean, to its coverage at the equilibrium of the mean
field model, as a share of all sites. For lattices with one site in the cell. Missing: as above, more sites in the cell. -/
theorem C129_coverage_partial {n : Nat} (hn : 0 < n) (o : MFOwner ℝ) (total P Q : Str → ℝ) (h : Ready o total P Q)
    (hc : ∀ states ∈ o.net.rxns, RateClean states) (ro : RateOwner) (algo : RateAlgo) (rel : RelDict ℝ) (kf kr : List ℝ)
    (hs : SameRates o P ro algo rel kf kr) (types : List Str) (ds : List (ProcDict C)) (procs : List (KProc ℝ C)) (m : List Str)
    (hprocs : getProcesses (latticeOwner ro algo rel types) ds [] = (.ok procs, m)) (τ : Str → Str) (hsh : ShowsNetwork o τ types ds)
    (place : C → Int → List (List (Fin n))) (hplace : ∀ x b, ∀ a ∈ place x b, a.Nodup) (v : Str → ℝ) (hv : Live o total P Q kf kr v)
    (hst : Standstill o (kf, kr) v) (hre : AllReached place procs types) (empty : Str) (he : empty ∈ types) :
    ∃ cov : Config (Fin n) types → List ℝ, (∀ c, recordCoverages types empty [(1 : ℝ)] (List.ofFn fun s => (c s).1) = .ok (cov c)) ∧
    ∀ (i : Nat) (a : Str), a ∈ o.net.ads → types[i]? = some (τ a) → τ a ≠ empty → ∃ x : Config (Fin n) types → ℝ, (∀ c, (cov c)[i]? = some (x c)) ∧
      ∃ l, 0 < l ∧ ∀ p, Master place procs types p → ∑ c, p 0 c = 1 → ∃ A, 0 ≤ A ∧ ∀ t, 0 ≤ t →
        |(∑ c, p t c * x c) - v a / (o.net.siteCols.map (coverage o.net total v)).sum| ≤ A * Real.exp (-l * t) := by
  have hb := (C129_equilibria_partial o total P Q h hc ro algo rel kf kr hs types ds procs m hprocs τ hsh place hplace v hv).mp hst
  have hnd : types.Nodup := hsh.types.nodup_iff.mpr ((siteCols_nodup h.parse).map_on fun x hx y hy e => hsh.own x hx y hy e)
  have hpos := types_share_pos h hsh (live_coverage h hv)
  obtain ⟨cov, h1, h2⟩ := C125_coverage_partial hn _ _ _ _ _ _ hb types hnd hre empty he
  refine ⟨cov, h1, ?_⟩
  intro i a ha hi hne
  obtain ⟨x, hx, l, hl, hf⟩ := h2 i (τ a) hi hne
  refine ⟨x, hx, l, hl, ?_⟩
  have hax : a ∈ o.net.siteCols := by unfold Network.siteCols; exact List.mem_append_right _ ha
  have hiso : isotherm 1 (fun t => -Real.log (ownerCoverage o.net τ (coverage o.net total v) t)) types (τ a)
      = v a / (o.net.siteCols.map (coverage o.net total v)).sum := by
    unfold isotherm
    have e : ∀ t ∈ types, Real.exp (-(-Real.log (ownerCoverage o.net τ (coverage o.net total v) t)) / 1)
        = ownerCoverage o.net τ (coverage o.net total v) t := fun t ht => by
      rw [div_one, neg_neg, Real.exp_log (hpos t ht)]
    rw [e _ (List.mem_of_getElem? hi), List.map_congr_left e, types_sum h hsh, ownerCoverage_own (siteCols_nodup h.parse) hsh.own _ hax]
    unfold coverage
    rw [if_pos ha]
  intro p hp h1
  obtain ⟨A, hA, hA'⟩ := hf p hp h1
  rw [hiso] at hA'
  exact ⟨A, hA, hA'⟩

theorem tendsto_of_exp {f : ℝ → ℝ} {y A l : ℝ} (hl : 0 < l) (h : ∀ t, 0 ≤ t → |f t - y| ≤ A * Real.exp (-l * t)) :
    Filter.Tendsto f Filter.atTop (nhds y) := by
  refine tendsto_iff_norm_sub_tendsto_zero.mpr ?_
  refine squeeze_zero' (Filter.Eventually.of_forall fun t => norm_nonneg _) ((Filter.eventually_ge_atTop 0).mono fun t ht => ?_) (?_ : Filter.Tendsto (fun t => A * Real.exp (-l * t)) _ _)
  · rw [Real.norm_eq_abs]
    exact h t ht
  · have : Filter.Tendsto (fun t : ℝ => -l * t) Filter.atTop Filter.atBot := Filter.tendsto_id.const_mul_atTop_of_neg (by linarith)
    simpa using (Real.tendsto_exp_atBot.comp this).const_mul A

/-- **C129** So for constants that fit the gases and a network that is not blocked, both models tend to the same coverages, whatever the
surface was like at the beginning. Missing: as above, and adsorbates on both sides of a reaction or taking several sites. -/
theorem C129_same_limit_partial {n : Nat} (hn : 0 < n) (o : MFOwner ℝ) (total P Q : Str → ℝ) (kf kr : List ℝ) (κf κr : Str → ℝ)
    (h : FlowOk o total P Q kf kr κf κr) (hkf : ∀ k ∈ kf, 0 < k) (hkr : ∀ k ∈ kr, 0 < k) (hP : ∀ g ∈ o.net.gas, 0 < P g)
    (hQ : ∀ g ∈ o.net.liq, 0 < Q g) (ht : ∀ s ∈ o.net.sites, 0 < total s) (hu : Unblocked o.net) (hw : ConstantsFitGases o.net P Q kf kr)
    (ro : RateOwner) (algo : RateAlgo) (rel : RelDict ℝ) (hs : SameRates o P ro algo rel kf kr) (types : List Str) (ds : List (ProcDict C))
    (procs : List (KProc ℝ C)) (m : List Str) (hprocs : getProcesses (latticeOwner ro algo rel types) ds [] = (.ok procs, m)) (τ : Str → Str)
    (hsh : ShowsNetwork o τ types ds) (place : C → Int → List (List (Fin n))) (hplace : ∀ x b, ∀ a ∈ place x b, a.Nodup)
    (hre : AllReached place procs types) (empty : Str) (he : empty ∈ types)
    (v : ℝ → Str → ℝ) (hv : ∀ T, Follows o (kf, kr) T v) (hv0 : ∀ x ∈ o.net.siteCols, 0 ≤ coverage o.net total (v 0) x)
    (p : ℝ → Config (Fin n) types → ℝ) (hp : Master place procs types p) (hp0 : ∑ c, p 0 c = 1) :
    ∃ cov : Config (Fin n) types → List ℝ, (∀ c, recordCoverages types empty [(1 : ℝ)] (List.ofFn fun s => (c s).1) = .ok (cov c)) ∧
    ∀ (i : Nat) (a : Str), a ∈ o.net.ads → types[i]? = some (τ a) → τ a ≠ empty → ∃ x : Config (Fin n) types → ℝ, (∀ c, (cov c)[i]? = some (x c)) ∧
      ∃ y, Filter.Tendsto (fun t => v t a) Filter.atTop (nhds y) ∧
        Filter.Tendsto (fun t => ∑ c, p t c * x c) Filter.atTop (nhds (y / (o.net.sites.map total).sum)) := by
  obtain ⟨e, hle, hse, -, -, hlim⟩ := C128_reached_partial o total P Q kf kr κf κr h hkf hkr hP hQ ht hu hw (v 0) hv0
  obtain ⟨cov, h1, h2⟩ := C129_coverage_partial hn o total P Q h.ready h.clean ro algo rel kf kr hs types ds procs m hprocs τ hsh place hplace
    e hle hse hre empty he
  refine ⟨cov, h1, ?_⟩
  intro i a ha hi hne
  obtain ⟨x, hx, l, hl, hf⟩ := h2 i a ha hi hne
  refine ⟨x, hx, e a, hlim v hv (fun _ _ => rfl) a ha, ?_⟩
  obtain ⟨A, -, hA⟩ := hf p hp hp0
  rw [total_cover h.ready] at hA
  exact tendsto_of_exp hl hA

/-! ### carbon monoxide on three sites -/

noncomputable def exLgOwner : RateOwner := ⟨exLoopRxns, 450, [(str! "CO_g", 1)], 0, 0, false⟩
noncomputable def exLgRel : RelDict ℝ := ⟨some [0, 2], some [2, 0], some [-2, 2]⟩
/-- Adsorption, and desorption defined on its own. -/
def exLgDicts : List (ProcDict Nat) :=
  [⟨str! "CO_g + *_s -> CO_s", [0], [str! "V"], [str! "C"], false, [0], false, false⟩,
   ⟨str! "CO_s -> CO_g + *_s", [0], [str! "C"], [str! "V"], false, [0], false, false⟩]
def exLgType (x : Str) : Str := if x = str! "CO_s" then str! "C" else str! "V"

theorem exLg_states : eqnFormulas (str! "CO_g + *_s -> CO_s") = .ok [[fCO, fFree], [⟨str! "CO_s", 1, str! "CO", 1, str! "s", str! "CO_s"⟩]] ∧
    eqnFormulas (str! "CO_s -> CO_g + *_s") = .ok [[⟨str! "CO_s", 1, str! "CO", 1, str! "s", str! "CO_s"⟩], [fCO, fFree]] := by
  constructor <;> decide

theorem exLg_shows : ShowsNetwork exLoopMF exLgType [str! "V", str! "C"] exLgDicts := by
  have hcols : exLoopMF.net.siteCols = [str! "*_s", str! "CO_s"] := by decide
  refine ⟨?_, ?_, ?_, ?_, ?_⟩
  · rw [hcols]; decide
  · rw [hcols]; decide
  · intro d hd
    simp only [exLgDicts, List.mem_cons, List.not_mem_nil, or_false] at hd
    rcases hd with rfl | rfl
    · refine ⟨?_, ?_, ?_⟩
      · intro states is h1 h2
        rw [show _ = _ from exLg_states.1] at h1
        cases h1; cases h2; decide
      · intro states is h1 h2
        rw [show _ = _ from exLg_states.1] at h1
        cases h1; cases h2; decide
      · intro states is fs h1 h2 h3
        rw [show _ = _ from exLg_states.1] at h1
        cases h1; cases h2; cases h3; decide
    · refine ⟨?_, ?_, ?_⟩
      · intro states is h1 h2
        rw [show _ = _ from exLg_states.2] at h1
        cases h1; cases h2; decide
      · intro states is h1 h2
        rw [show _ = _ from exLg_states.2] at h1
        cases h1; cases h2; decide
      · intro states is fs h1 h2 h3
        rw [show _ = _ from exLg_states.2] at h1
        cases h1; cases h2; cases h3; decide
  · intro d hd
    simp only [exLgDicts, List.mem_cons, List.not_mem_nil, or_false] at hd
    rcases hd with rfl | rfl
    all_goals
      refine ⟨rfl, rfl, ?_⟩
      rintro (_ | j) b e h1 h2
      · cases h1; cases h2; decide
      · exact nomatch h1
  · intro r hr
    have : r ∈ exLoopRxns := hr
    simp only [exLoopRxns, List.mem_cons, List.not_mem_nil, or_false] at this
    rcases this with rfl | rfl
    · exact ⟨_, List.mem_cons_self, rfl⟩
    · exact ⟨_, List.mem_cons_of_mem _ List.mem_cons_self, rfl⟩

/-- All hypotheses hold for adsorption and desorption of carbon monoxide at 450 K by transition state theory. -/
theorem exLg_all : ∃ kf kr κf κr procs m, FlowOk exLoopMF (fun _ => 1) (fun _ => 1) (fun _ => 1) kf kr κf κr ∧ (∀ k ∈ kf, 0 < k) ∧ (∀ k ∈ kr, 0 < k) ∧
    ConstantsFitGases exLoopMF.net (fun _ => 1) (fun _ => 1) kf kr ∧ SameRates exLoopMF (fun _ => 1) exLgOwner .TST exLgRel kf kr ∧
    getProcesses (latticeOwner exLgOwner .TST exLgRel [str! "V", str! "C"]) exLgDicts [] = (.ok procs, m) ∧
    (∀ x b, ∀ a ∈ exLatPlace x b, a.Nodup) ∧ (∀ p ∈ procs, 0 < p.rate) ∧ AllReached exLatPlace procs [str! "V", str! "C"] := by
  obtain ⟨G, hG⟩ := exists_extends [(str! "CO_g", (0 : ℝ)), (str! "*_s", 0), (str! "CO_s", -2)]
  have hT : 0 < exLgOwner.T := by norm_num [exLgOwner]
  obtain ⟨kf, kr, hk, hfit⟩ := fit_TST _ G hG exLgOwner rfl hT _ C119_collision_refuted.1
  obtain ⟨_, _, _, m⟩ := exLoop_collision G hG
  obtain ⟨κf, κr, k1, k2⟩ := hfit.own
  have hok : FlowOk exLoopMF (fun _ => 1) (fun _ => 1) (fun _ => 1) kf kr κf κr := ⟨m.ready, m.clean, k1, k2, exLoop_one, exLoop_nsite⟩
  obtain ⟨p1, p2⟩ := fit_pos m.ready.parse hfit
  have hgas : GasesInEquilibrium exLoopMF.net (kBeV * exLgOwner.T) G (fun _ => 1) (fun _ => 1) := by
    intro w hw hcl
    have e3 : ∀ x w, production (K := ℝ) exLoopMF.net w x = (List.zipWith (fun (p : Int) r => (p : ℝ) * r) (exLoopNet.rxns.map (produced x)) w).sum := by
      intro x w
      unfold production
      rw [List.zipWith_map_left]
      rfl
    have e4 : w.length = 2 := hw
    match w, e4 with
    | [a, b], _ =>
      have h1 := hcl (str! "CO_s") (by decide)
      have h2 : production exLoopMF.net [a, b] (str! "CO_g") = 0 := by
        rw [e3] at h1 ⊢
        rw [show exLoopNet.rxns.map (produced (str! "CO_s")) = [1, -1] by decide] at h1
        rw [show exLoopNet.rxns.map (produced (str! "CO_g")) = [-1, 1] by decide]
        simp at h1 ⊢
        linarith
      unfold gasFreeEnergy
      rw [show exLoopMF.net.gas = [str! "CO_g"] by decide, show exLoopMF.net.liq = [] by decide]
      simp [h2]
  have hpr : ∀ k v, get? exLgOwner.pressures k = some v → v = 1 := by
    intro k v hkv
    simp only [exLgOwner, get?] at hkv
    split at hkv
    · cases hkv; rfl
    · exact nomatch hkv
  have hall := (C51_accepted (latticeOwner exLgOwner .TST exLgRel [str! "V", str! "C"]) exLgDicts []).mpr (by
    intro d hd
    have hm : d.reaction ∈ exLoopRxns ∧ d.mixed = false ∧ (∀ e, e ∈ d.before ∨ e ∈ d.after → e = ['*'] ∨ e ∈ [str! "V", str! "C"]) ∧
        ∃ states is fs, eqnFormulas d.reaction = .ok states ∧ states.head? = some is ∧ states.getLast? = some fs ∧
          ∀ g ∈ is ++ fs, g.type = .gas → g = fCO := by
      simp only [exLgDicts, List.mem_cons, List.not_mem_nil, or_false] at hd
      rcases hd with rfl | rfl
      · exact ⟨by decide, rfl, by simp, _, _, _, exLg_states.1, rfl, rfl, by decide⟩
      · exact ⟨by decide, rfl, by simp, _, _, _, exLg_states.2, rfl, rfl, by decide⟩
    obtain ⟨m1, m2, m3, states, is, fs, s1, s2, s3, s4⟩ := hm
    refine ⟨m1, m2, m3, ?_⟩
    obtain ⟨v, x, y, -, hx, -⟩ := C17_from_absolute_energies _ exLgOwner _ hT C119_collision_refuted.1 d.reaction m1
    have := (C21_written exLgOwner _ d.reaction x y states is fs s1 s2 s3 hx).1 (fun _ => 1) (by
      intro g hg ht
      rw [s4 g hg ht]
      rfl)
    show (ratesTST exLgOwner exLgRel true d.reaction).isOk = true
    unfold exLgRel
    rw [this]
    rfl)
  cases h : getProcesses (latticeOwner exLgOwner .TST exLgRel [str! "V", str! "C"]) exLgDicts [] with
  | mk a mm =>
    rw [h] at hall
    cases a with
    | error e => exact nomatch hall
    | ok procs =>
      have hpos := (C125_rates exLgOwner hT _ _ _ _ procs mm h).2.1 (fun k v hkv => by rw [hpr k v hkv]; norm_num)
      refine ⟨kf, kr, κf, κr, procs, mm, hok, p1, p2, (fitGases_iff hok m.plain (fun _ _ => one_pos) (fun _ _ => one_pos) (mul_pos kBeV_pos hT) hfit).mpr hgas,
        ⟨rfl, fun k v hkv => (hpr k v hkv).symm, fun e => (nomatch e), hk⟩, rfl, ?_, hpos, ?_⟩
      · intro x b a ha
        unfold exLatPlace at ha
        split at ha <;> (revert a; decide)
      · refine C125_adsorption _ _ _ _ mm h hpos [str! "V", str! "C"] (str! "V") (by simp) ?_
        intro t ht hne s
        have : t = str! "C" := by
          simp only [List.mem_cons, List.not_mem_nil, or_false] at ht
          exact ht.resolve_left hne
        subst this
        refine ⟨_, List.mem_cons_self, rfl, (exLg_shows.plain _ List.mem_cons_self).2, Or.inl ⟨rfl, rfl⟩, 0, List.mem_singleton.mpr rfl, 0, List.mem_singleton.mpr rfl, ?_⟩
        revert s
        decide

/-- From the empty surface, in both models, the coverage of carbon monoxide tends to the same number. -/
example : ∃ (kf kr : List ℝ) (procs : List (KProc ℝ Nat)) (v : ℝ → Str → ℝ) (p : ℝ → Config (Fin 3) [str! "V", str! "C"] → ℝ)
    (x : Config (Fin 3) [str! "V", str! "C"] → ℝ) (y : ℝ), (∀ T, Follows exLoopMF (kf, kr) T v) ∧ v 0 (str! "CO_s") = 0 ∧
    Master exLatPlace procs [str! "V", str! "C"] p ∧ p 0 (fun _ => ⟨str! "V", by decide⟩) = 1 ∧
    (∀ c, ∃ cov, recordCoverages [str! "V", str! "C"] (str! "V") [(1 : ℝ)] (List.ofFn fun s => (c s).1) = .ok cov ∧ cov[1]? = some (x c)) ∧
    Filter.Tendsto (fun t => v t (str! "CO_s")) Filter.atTop (nhds y) ∧ Filter.Tendsto (fun t => ∑ c, p t c * x c) Filter.atTop (nhds y) := by
  obtain ⟨kf, kr, κf, κr, procs, m, hok, hkf, hkr, hw, hs, hprocs, hplace, hpos, hre⟩ := exLg_all
  have hcov0 : ∀ v : Str → ℝ, v (str! "CO_s") = 0 → ∀ x ∈ exLoopMF.net.siteCols, 0 ≤ coverage exLoopMF.net (fun _ => (1 : ℝ)) v x := by
    intro v hv
    rw [show exLoopMF.net.siteCols = [str! "*_s", str! "CO_s"] by decide]
    unfold coverage
    rw [show exLoopMF.net.ads = [str! "CO_s"] by decide]
    have f1 : [str! "CO_s"].filter (fun a => decide (OnSite a (str! "*_s"))) = [str! "CO_s"] := by decide
    intro x hx
    simp only [List.mem_cons, List.not_mem_nil, or_false] at hx
    rcases hx with rfl | rfl
    · rw [if_neg (by decide), f1]; simp [hv]
    · rw [if_pos (by simp), hv]
  obtain ⟨v, hv0, hv⟩ := C93_exists_partial _ _ _ _ _ _ _ _ hok (fun _ => 0)
    ⟨fun k hk => (hkf k hk).le, fun k hk => (hkr k hk).le, fun _ _ => zero_le_one, fun _ _ => zero_le_one, hcov0 _ rfl⟩
  have hv0' : v 0 (str! "CO_s") = 0 := hv0 _ (by decide)
  obtain ⟨p, hp, hm, -, -⟩ := C125_evolves exLatPlace procs (fun p hp => (hpos p hp).le) [str! "V", str! "C"]
    (fun c => if c = (fun _ => ⟨str! "V", by decide⟩) then 1 else 0) (fun c => by split <;> norm_num) (by simp)
  obtain ⟨cov, h1, h2⟩ := C129_same_limit_partial (n := 3) (by norm_num) exLoopMF (fun _ => 1) (fun _ => 1) (fun _ => 1) kf kr κf κr hok hkf hkr
    (fun _ _ => one_pos) (fun _ _ => one_pos) (fun _ _ => one_pos) exLoop_unblocked hw exLgOwner .TST exLgRel hs _ exLgDicts procs m hprocs exLgType
    exLg_shows exLatPlace hplace hre (str! "V") (by decide) v hv (hcov0 _ hv0') p hm (by rw [hp]; simp)
  obtain ⟨x, hx, y, y1, y2⟩ := h2 1 (str! "CO_s") (by decide) rfl (by decide)
  rw [show exLoopMF.net.sites = [str! "*_s"] by decide] at y2
  simp only [List.map_cons, List.map_nil, List.sum_cons, List.sum_nil, add_zero, div_one] at y2
  exact ⟨kf, kr, procs, v, p, x, y, hv, hv0', hm, by rw [hp]; simp, fun c => ⟨cov c, h1 c, hx c⟩, y1, y2⟩

/-- The equilibrium of the mean field model makes the processes of the lattice balance, and three sites become uncorrelated. -/
example : ∃ (kf kr : List ℝ) (procs : List (KProc ℝ Nat)) (e : Str → ℝ), Live exLoopMF (fun _ => 1) (fun _ => 1) (fun _ => 1) kf kr e ∧ Standstill exLoopMF (kf, kr) e ∧
    BalancedLattice (latticeOwner exLgOwner .TST exLgRel [str! "V", str! "C"]) 1
      (fun t => -Real.log (ownerCoverage exLoopMF.net exLgType (coverage exLoopMF.net (fun _ => 1) e) t)) exLatPlace exLgDicts procs ∧
    ∃ l, 0 < l ∧ ∀ p, Master exLatPlace procs [str! "V", str! "C"] p → ∑ c, p 0 c = 1 → ∃ A, 0 ≤ A ∧ ∀ t, 0 ≤ t → ∀ c : Config (Fin 3) [str! "V", str! "C"],
      |p t c - ∏ s, siteShare exLoopMF.net exLgType (coverage exLoopMF.net (fun _ => 1) e) (c s).1| ≤ A * Real.exp (-l * t) := by
  obtain ⟨kf, kr, κf, κr, procs, m, hok, hkf, hkr, hw, hs, hprocs, hplace, -, hre⟩ := exLg_all
  obtain ⟨e, he, hse⟩ := (C128_constants_partial _ _ _ _ _ _ _ _ hok hkf hkr (fun _ _ => one_pos) (fun _ _ => one_pos) fun _ _ => one_pos).mpr hw
  exact ⟨kf, kr, procs, e, he, hse, (C129_equilibria_partial _ _ _ _ hok.ready hok.clean _ _ _ _ _ hs _ _ _ _ hprocs _ exLg_shows _ hplace e he).mp hse,
    C129_uncorrelated_partial _ _ _ _ hok.ready hok.clean _ _ _ _ _ hs _ _ _ _ hprocs _ exLg_shows _ hplace e he hse hre⟩

/-! ### oxygen on two sites, away from equilibrium -/

def exDrvRxns : List Str := [str! "O2_g + 2*_s -> 2O_s", str! "O_s -> O_g + *_s"]
def exDrvNet : Network := netOf exDrvRxns
noncomputable def exDrvMF : MFOwner ℝ := ⟨exDrvRxns, exDrvNet, [(str! "*_s", 1)], [(str! "O2_g", 1 / 3), (str! "O_g", 1)], []⟩
noncomputable def exDrvOwner : RateOwner := ⟨exDrvRxns, 450, [(str! "O2_g", 1 / 3), (str! "O_g", 1)], 0, 0, false⟩
noncomputable def exDrvE : ℝ := kBeV * 450 * Real.log 12
noncomputable def exDrvRel : RelDict ℝ := ⟨some [0, 0], some [exDrvE, exDrvE], some [-exDrvE, -exDrvE]⟩
noncomputable def exDrvP (x : Str) : ℝ := if x = str! "O2_g" then 1 / 3 else 1
noncomputable def exDrvK : ℝ := kBeV * 450 / heV
/-- One process on neighbouring sites, one on each site. -/
def exDrvDicts : List (ProcDict Nat) :=
  [⟨str! "O2_g + 2*_s -> 2O_s", [1], [str! "V", str! "V"], [str! "O", str! "O"], false, [0], false, false⟩,
   ⟨str! "O_s -> O_g + *_s", [0], [str! "O"], [str! "V"], false, [0], false, false⟩]
def exDrvPlace : Nat → Int → List (List (Fin 2))
  | 0, _ => [[0], [1]]
  | _, _ => [[0, 1], [1, 0]]
def exDrvType (x : Str) : Str := if x = str! "O_s" then str! "O" else str! "V"

theorem exDrv_states : eqnFormulas (str! "O2_g + 2*_s -> 2O_s") = .ok
      [[⟨str! "O2_g", 1, str! "O2", 1, str! "g", str! "O2_g"⟩, ⟨str! "2*_s", 2, str! "*", 1, str! "s", str! "*_s"⟩], [⟨str! "2O_s", 2, str! "O", 1, str! "s", str! "O_s"⟩]] ∧
    eqnFormulas (str! "O_s -> O_g + *_s") = .ok
      [[⟨str! "O_s", 1, str! "O", 1, str! "s", str! "O_s"⟩], [⟨str! "O_g", 1, str! "O", 1, str! "g", str! "O_g"⟩, ⟨str! "*_s", 1, str! "*", 1, str! "s", str! "*_s"⟩]] := by
  constructor <;> decide

theorem exDrv_shows : ShowsNetwork exDrvMF exDrvType [str! "V", str! "O"] exDrvDicts := by
  have hcols : exDrvMF.net.siteCols = [str! "*_s", str! "O_s"] := by decide
  refine ⟨?_, ?_, ?_, ?_, ?_⟩
  · rw [hcols]; decide
  · rw [hcols]; decide
  · intro d hd
    simp only [exDrvDicts, List.mem_cons, List.not_mem_nil, or_false] at hd
    rcases hd with rfl | rfl
    · refine ⟨?_, ?_, ?_⟩
      · intro states is h1 h2
        rw [show _ = _ from exDrv_states.1] at h1
        cases h1; cases h2; decide
      · intro states is h1 h2
        rw [show _ = _ from exDrv_states.1] at h1
        cases h1; cases h2; decide
      · intro states is fs h1 h2 h3
        rw [show _ = _ from exDrv_states.1] at h1
        cases h1; cases h2; cases h3; decide
    · refine ⟨?_, ?_, ?_⟩
      · intro states is h1 h2
        rw [show _ = _ from exDrv_states.2] at h1
        cases h1; cases h2; decide
      · intro states is h1 h2
        rw [show _ = _ from exDrv_states.2] at h1
        cases h1; cases h2; decide
      · intro states is fs h1 h2 h3
        rw [show _ = _ from exDrv_states.2] at h1
        cases h1; cases h2; cases h3; decide
  · intro d hd
    simp only [exDrvDicts, List.mem_cons, List.not_mem_nil, or_false] at hd
    rcases hd with rfl | rfl
    · refine ⟨rfl, rfl, ?_⟩
      rintro (_ | _ | j) b e h1 h2
      · cases h1; cases h2; decide
      · cases h1; cases h2; decide
      · exact nomatch h1
    · refine ⟨rfl, rfl, ?_⟩
      rintro (_ | j) b e h1 h2
      · cases h1; cases h2; decide
      · exact nomatch h1
  · intro r hr
    have : r ∈ exDrvRxns := hr
    simp only [exDrvRxns, List.mem_cons, List.not_mem_nil, or_false] at this
    rcases this with rfl | rfl
    · exact ⟨_, List.mem_cons_self, rfl⟩
    · exact ⟨_, List.mem_cons_of_mem _ List.mem_cons_self, rfl⟩

theorem exDrv_ready : Ready exDrvMF (fun _ => 1) exDrvP (fun _ => 1) := by
  refine ⟨by decide, ?_, ?_, ?_⟩
  · rw [show exDrvMF.net.sites = [str! "*_s"] by decide]; simp only [List.mem_singleton, forall_eq]; rfl
  · rw [show exDrvMF.net.gas = [str! "O2_g", str! "O_g"] by decide]
    simp only [List.mem_cons, List.not_mem_nil, or_false, forall_eq_or_imp, forall_eq]
    refine ⟨?_, ?_⟩
    · simp [exDrvMF, exDrvP, get?]
    · simp [exDrvMF, exDrvP, get?]
  · rw [show exDrvMF.net.liq = [] by decide]; simp

theorem exDrv_clean : ∀ states ∈ exDrvMF.net.rxns, RateClean states :=
  fun st hst => rateClean_of ((by decide : ∀ st ∈ exDrvNet.rxns, rateCleanB st = true) st hst)

theorem exDrv_exp : Real.exp (-exDrvE / (kBeV * 450)) = 1 / 12 := by
  have := kBeV_pos
  unfold exDrvE
  rw [neg_div, mul_div_assoc, mul_comm (kBeV * 450), div_mul_cancel₀ _ (by positivity), Real.exp_neg, Real.exp_log (by norm_num)]
  norm_num

theorem exDrv_each : ratesTST exDrvOwner exDrvRel false (str! "O2_g + 2*_s -> 2O_s") = .ok (exDrvK, exDrvK / 12) ∧
    ratesTST exDrvOwner exDrvRel false (str! "O_s -> O_g + *_s") = .ok (exDrvK, exDrvK / 12) := by
  have hT : exDrvOwner.T ≠ 0 := by norm_num [exDrvOwner]
  have a1 : exDrvK = kBeV * exDrvOwner.T / heV * Real.exp (-0 / (kBeV * exDrvOwner.T)) := by simp [exDrvK, exDrvOwner]
  have a2 : exDrvK / 12 = kBeV * exDrvOwner.T / heV * Real.exp (-exDrvE / (kBeV * exDrvOwner.T)) := by
    rw [show exDrvOwner.T = 450 from rfl, exDrv_exp]; unfold exDrvK; ring
  constructor
  · exact ratesTST_ok.mpr ⟨⟨0, exDrvE, -exDrvE⟩, by
      unfold relOf
      rw [if_neg (by simp [exDrvOwner, exDrvRxns])]
      rfl, (kTST_ok hT).mpr a1, (kTST_ok hT).mpr a2⟩
  · exact ratesTST_ok.mpr ⟨⟨0, exDrvE, -exDrvE⟩, by
      unfold relOf
      rw [if_neg (by simp [exDrvOwner, exDrvRxns])]
      rfl, (kTST_ok hT).mpr a1, (kTST_ok hT).mpr a2⟩

theorem exDrv_constants : rateConstants exDrvOwner .TST exDrvRel = .ok ([exDrvK, exDrvK], [exDrvK / 12, exDrvK / 12]) := by
  unfold rateConstants
  rw [if_neg (by simp [exDrvRel])]
  show (exDrvRxns.mapM (ratesTST exDrvOwner exDrvRel false) >>= _) = _
  unfold exDrvRxns
  rw [List.mapM_cons, List.mapM_cons, exDrv_each.1, exDrv_each.2]
  rfl

theorem exDrv_same : SameRates exDrvMF exDrvP exDrvOwner .TST exDrvRel [exDrvK, exDrvK] [exDrvK / 12, exDrvK / 12] := by
  refine ⟨rfl, ?_, fun e => (nomatch e), exDrv_constants⟩
  intro k v hk
  simp only [exDrvOwner, get?] at hk
  split at hk
  · rename_i h; cases hk; rw [← h]; simp [exDrvP]
  · split at hk
    · rename_i h; cases hk; rw [← h]; simp [exDrvP]
    · exact nomatch hk

theorem exDrv_kmc : kmcRates exDrvOwner .TST exDrvRel (str! "O2_g + 2*_s -> 2O_s") = .ok (exDrvK / 3, exDrvK / 12) ∧
    kmcRates exDrvOwner .TST exDrvRel (str! "O_s -> O_g + *_s") = .ok (exDrvK, exDrvK / 12) := by
  constructor
  · show ratesTST exDrvOwner exDrvRel true (str! "O2_g + 2*_s -> 2O_s") = _
    rw [(C21_written exDrvOwner _ _ _ _ _ _ _ exDrv_states.1 rfl rfl exDrv_each.1).1 exDrvP (by
      intro g hg ht
      have : g.text = str! "O2_g" := by
        revert g; decide
      rw [this]
      rfl)]
    simp [exDrvP, Formula.type]
    ring
  · show ratesTST exDrvOwner exDrvRel true (str! "O_s -> O_g + *_s") = _
    rw [(C21_written exDrvOwner _ _ _ _ _ _ _ exDrv_states.2 rfl rfl exDrv_each.2).1 exDrvP (by
      intro g hg ht
      have : g.text = str! "O_g" := by
        revert g; decide
      rw [this]
      rfl)]
    simp [exDrvP, Formula.type]

/-- The list of processes. -/
theorem exDrv_procs : getProcesses (latticeOwner exDrvOwner .TST exDrvRel [str! "V", str! "O"]) exDrvDicts [] = (.ok
    [⟨1, [str! "V", str! "V"], [str! "O", str! "O"], 0, exDrvK / 3, false, false⟩, ⟨1, [str! "O", str! "O"], [str! "V", str! "V"], 0, exDrvK / 12, false, false⟩,
     ⟨0, [str! "O"], [str! "V"], 0, exDrvK, false, false⟩, ⟨0, [str! "V"], [str! "O"], 0, exDrvK / 12, false, false⟩],
    [str! "O2_g + 2*_s -> 2O_s(->)", str! "O2_g + 2*_s -> 2O_s(<-)", str! "O_s -> O_g + *_s(->)", str! "O_s -> O_g + *_s(<-)"]) := by
  have r1 : processRates (latticeOwner exDrvOwner .TST exDrvRel [str! "V", str! "O"]) (exDrvDicts[0]) = .ok (exDrvK / 3, exDrvK / 12) := by
    unfold processRates
    rw [if_neg (by simp [exDrvDicts, latticeOwner, exDrvOwner, exDrvRxns]), if_neg (by simp [exDrvDicts]), if_neg (by simp [exDrvDicts, latticeOwner])]
    exact exDrv_kmc.1
  have r2 : processRates (latticeOwner exDrvOwner .TST exDrvRel [str! "V", str! "O"]) (exDrvDicts[1]) = .ok (exDrvK, exDrvK / 12) := by
    unfold processRates
    rw [if_neg (by simp [exDrvDicts, latticeOwner, exDrvOwner, exDrvRxns]), if_neg (by simp [exDrvDicts]), if_neg (by simp [exDrvDicts, latticeOwner])]
    exact exDrv_kmc.2
  rw [show exDrvDicts = [exDrvDicts[0], exDrvDicts[1]] from rfl]
  unfold getProcesses getProcesses getProcesses getSingleProcess
  rw [r1, r2]
  rfl

/-- The mean field model. -/
theorem exDrv_steady (v : ℝ) : steadyStateFunction exDrvMF ([exDrvK, exDrvK], [exDrvK / 12, exDrvK / 12]) [v]
    = .ok [exDrvK / 12 * (6 * v ^ 2 - 29 * v + 9)] := by
  have hads : exDrvMF.net.ads = [str! "O_s"] := by decide
  have hone : ∀ a ∈ exDrvMF.net.ads, ∀ st ∈ exDrvMF.net.rxns, OneSided a st :=
    fun a ha st hst => oneSided_of ((by decide : ∀ a ∈ exDrvNet.ads, ∀ st ∈ exDrvNet.rxns, oneSidedB a st = true) a ha st hst)
  have hcovO : coverage exDrvMF.net (fun _ => (1 : ℝ)) (fun _ => v) (str! "O_s") = v := by
    unfold coverage; rw [hads]; exact if_pos (by simp)
  have hcovV : coverage exDrvMF.net (fun _ => (1 : ℝ)) (fun _ => v) (str! "*_s") = 1 - v := by
    unfold coverage; rw [hads, if_neg (by decide)]
    rw [List.filter_cons_of_pos (by decide)]
    simp
  obtain ⟨rfs, rrs, g1, g2, g3, g4⟩ := C25_solver_constants_partial exDrvMF _ _ _ exDrv_ready exDrv_clean (fun _ => v) exDrvOwner rfl .TST exDrvRel _ _ exDrv_constants
  obtain ⟨x, y, k1, k2, r1, r2⟩ := g4 0 (by decide) _ _ _ exDrv_states.1 rfl rfl
  obtain ⟨x', y', k1', k2', r1', r2'⟩ := g4 1 (by decide) _ _ _ exDrv_states.2 rfl rfl
  cases k1; cases k2; cases k1'; cases k2'
  have hl : exDrvMF.rxns.length = 2 := rfl
  have hrf : rfs = [exDrvK / 3 * (1 - v) ^ 2, exDrvK * v] := by
    match rfs, g2, r1, r1' with
    | [a, b], _, r1, r1' =>
      have e1 : a = _ := Option.some.inj r1
      have e2 : b = _ := Option.some.inj r1'
      rw [e1, e2]
      simp [stateActivity, specAct, specKind, hcovV, hcovO, exDrvP]
      ring
  have hrr : rrs = [exDrvK / 12 * v ^ 2, exDrvK / 12 * (1 - v)] := by
    match rrs, g3, r2, r2' with
    | [a, b], _, r2, r2' =>
      have e1 : a = _ := Option.some.inj r2
      have e2 : b = _ := Option.some.inj r2'
      rw [e1, e2]
      simp [stateActivity, specAct, specKind, hcovV, hcovO, exDrvP]
  obtain ⟨-, -, κf, κr, hκf, hκr⟩ := kOk_rateConstants exDrv_constants
  obtain ⟨net, n1, -, n3⟩ := C26_derivatives_partial exDrvMF _ _ _ exDrv_ready exDrv_clean (fun _ => v) _ _ κf κr hκf hκr hone
  have hnet : net = [exDrvK / 3 * (1 - v) ^ 2 - exDrvK / 12 * v ^ 2, exDrvK * v - exDrvK / 12 * (1 - v)] := by
    unfold getNetRates at n1
    rw [g1, hrf, hrr] at n1
    exact (Except.ok.inj n1).symm
  rw [hads, hnet] at n3
  rw [show [v] = [str! "O_s"].map (fun _ => v) from rfl, n3]
  unfold production
  rw [show exDrvMF.net.rxns = [[[⟨str! "O2_g", 1, str! "O2", 1, str! "g", str! "O2_g"⟩, ⟨str! "2*_s", 2, str! "*", 1, str! "s", str! "*_s"⟩],
      [⟨str! "2O_s", 2, str! "O", 1, str! "s", str! "O_s"⟩]], [[⟨str! "O_s", 1, str! "O", 1, str! "s", str! "O_s"⟩],
      [⟨str! "O_g", 1, str! "O", 1, str! "g", str! "O_g"⟩, ⟨str! "*_s", 1, str! "*", 1, str! "s", str! "*_s"⟩]]] by decide]
  simp [produced, stateCoef, totalCoef]
  ring

theorem lgMoves_one (b e : Str) (s : Fin 2) (hb : b ≠ ['*']) (he : e ≠ ['*']) (c c' : Fin 2 → Str) :
    Moves [b] [e] [s] c c' ↔ c s = b ∧ c' s = e ∧ ∀ s', s' ≠ s → c' s' = c s' := by
  constructor
  · intro h
    have := h.at_ 0 b e s rfl rfl rfl
    refine ⟨this.1.resolve_left hb, by rw [this.2, if_neg he], fun s' hs => h.rest s' (by simpa using hs)⟩
  · rintro ⟨h1, h2, h3⟩
    refine ⟨rfl, rfl, ?_, fun s' hs => h3 s' (by simpa using hs)⟩
    rintro (_ | j) x y t k1 k2 k3
    · cases k1; cases k2; cases k3
      exact ⟨Or.inr h1, by rw [if_neg he]; exact h2⟩
    · exact nomatch k1

theorem lgMoves_two (b e : Str) (s s' : Fin 2) (hs : s ≠ s') (hb : b ≠ ['*']) (he : e ≠ ['*']) (c c' : Fin 2 → Str) :
    Moves [b, b] [e, e] [s, s'] c c' ↔ c s = b ∧ c' s = e ∧ c s' = b ∧ c' s' = e := by
  constructor
  · intro h
    have h1 := h.at_ 0 b e s rfl rfl rfl
    have h2 := h.at_ 1 b e s' rfl rfl rfl
    exact ⟨h1.1.resolve_left hb, by rw [h1.2, if_neg he], h2.1.resolve_left hb, by rw [h2.2, if_neg he]⟩
  · rintro ⟨h1, h2, h3, h4⟩
    refine ⟨rfl, rfl, ?_, ?_⟩
    · rintro (_ | _ | j) x y t k1 k2 k3
      · cases k1; cases k2; cases k3
        exact ⟨Or.inr h1, by rw [if_neg he]; exact h2⟩
      · cases k1; cases k2; cases k3
        exact ⟨Or.inr h3, by rw [if_neg he]; exact h4⟩
      · exact nomatch k1
    · intro t ht
      exfalso
      revert ht
      have : t = s ∨ t = s' := by omega
      rcases this with rfl | rfl <;> simp

/-- The rates of the jumps. -/
theorem exDrv_jump (c c' : Fin 2 → Str) : jumpRate exDrvPlace
    [⟨1, [str! "V", str! "V"], [str! "O", str! "O"], 0, exDrvK / 3, false, false⟩, ⟨1, [str! "O", str! "O"], [str! "V", str! "V"], 0, exDrvK / 12, false, false⟩,
     ⟨0, [str! "O"], [str! "V"], 0, exDrvK, false, false⟩, ⟨0, [str! "V"], [str! "O"], 0, exDrvK / 12, false, false⟩] c c'
    = exDrvK / 12 * (
      (if c 0 = str! "V" ∧ c 1 = str! "V" ∧ c' 0 = str! "O" ∧ c' 1 = str! "O" then 8 else 0) +
      (if c 0 = str! "O" ∧ c 1 = str! "O" ∧ c' 0 = str! "V" ∧ c' 1 = str! "V" then 2 else 0) +
      (if c 0 = str! "O" ∧ c' 0 = str! "V" ∧ c' 1 = c 1 then 12 else 0) + (if c 1 = str! "O" ∧ c' 1 = str! "V" ∧ c' 0 = c 0 then 12 else 0) +
      (if c 0 = str! "V" ∧ c' 0 = str! "O" ∧ c' 1 = c 1 then 1 else 0) + (if c 1 = str! "V" ∧ c' 1 = str! "O" ∧ c' 0 = c 0 then 1 else 0)) := by
  have n1 : (str! "V") ≠ ['*'] := by decide
  have n2 : (str! "O") ≠ ['*'] := by decide
  have q1 : ∀ b e : Str, b ≠ ['*'] → e ≠ ['*'] → (Moves [b, b] [e, e] [(0 : Fin 2), 1] c c' ↔ c 0 = b ∧ c 1 = b ∧ c' 0 = e ∧ c' 1 = e) := by
    intro b e hb he
    rw [lgMoves_two b e 0 1 (by decide) hb he]
    tauto
  have q2 : ∀ b e : Str, b ≠ ['*'] → e ≠ ['*'] → (Moves [b, b] [e, e] [(1 : Fin 2), 0] c c' ↔ c 0 = b ∧ c 1 = b ∧ c' 0 = e ∧ c' 1 = e) := by
    intro b e hb he
    rw [lgMoves_two b e 1 0 (by decide) hb he]
    tauto
  have q3 : ∀ b e : Str, b ≠ ['*'] → e ≠ ['*'] → (Moves [b] [e] [(0 : Fin 2)] c c' ↔ c 0 = b ∧ c' 0 = e ∧ c' 1 = c 1) := by
    intro b e hb he
    rw [lgMoves_one b e 0 hb he]
    refine and_congr_right fun _ => and_congr_right fun _ => ⟨fun h => h 1 (by decide), fun h s hs => ?_⟩
    have : s = 1 := by omega
    rw [this]; exact h
  have q4 : ∀ b e : Str, b ≠ ['*'] → e ≠ ['*'] → (Moves [b] [e] [(1 : Fin 2)] c c' ↔ c 1 = b ∧ c' 1 = e ∧ c' 0 = c 0) := by
    intro b e hb he
    rw [lgMoves_one b e 1 hb he]
    refine and_congr_right fun _ => and_congr_right fun _ => ⟨fun h => h 0 (by decide), fun h s hs => ?_⟩
    have : s = 0 := by omega
    rw [this]; exact h
  unfold jumpRate
  simp only [exDrvPlace, List.map_cons, List.map_nil, List.sum_cons, List.sum_nil]
  rw [if_congr (q1 _ _ n1 n2) rfl rfl, if_congr (q2 _ _ n1 n2) rfl rfl, if_congr (q1 _ _ n2 n1) rfl rfl, if_congr (q2 _ _ n2 n1) rfl rfl,
    if_congr (q3 _ _ n2 n1) rfl rfl, if_congr (q4 _ _ n2 n1) rfl rfl, if_congr (q3 _ _ n1 n2) rfl rfl, if_congr (q4 _ _ n1 n2) rfl rfl]
  split_ifs <;> ring

theorem sum_config_two (F : Str → Str → ℝ) : ∑ c : Config (Fin 2) [str! "V", str! "O"], F (c 0).1 (c 1).1
    = F (str! "V") (str! "V") + F (str! "V") (str! "O") + (F (str! "O") (str! "V") + F (str! "O") (str! "O")) := by
  have h1 : ∑ c : Config (Fin 2) [str! "V", str! "O"], F (c 0).1 (c 1).1 = ∑ y : {t // t ∈ [str! "V", str! "O"]} × {t // t ∈ [str! "V", str! "O"]}, F y.1.1 y.2.1 :=
    Fintype.sum_equiv (finTwoArrowEquiv _) _ _ fun c => rfl
  rw [h1, Fintype.sum_prod_type]
  have h2 : ∀ a : {t // t ∈ [str! "V", str! "O"]}, ∑ b : {t // t ∈ [str! "V", str! "O"]}, F a.1 b.1 = F a.1 (str! "V") + F a.1 (str! "O") := by
    intro a
    rw [sum_over_types _ (by decide) (F a.1)]
    simp
  simp only [h2]
  rw [sum_over_types _ (by decide) fun a => F a (str! "V") + F a (str! "O")]
  simp

/-- The stationary distribution. -/
noncomputable def exDrvWeight (a b : Str) : ℝ :=
  if a = str! "V" then (if b = str! "V" then 157 / 332 else 61 / 332) else if b = str! "V" then 61 / 332 else 53 / 332

noncomputable def exDrvProcs : List (KProc ℝ Nat) :=
  [⟨1, [str! "V", str! "V"], [str! "O", str! "O"], 0, exDrvK / 3, false, false⟩, ⟨1, [str! "O", str! "O"], [str! "V", str! "V"], 0, exDrvK / 12, false, false⟩,
   ⟨0, [str! "O"], [str! "V"], 0, exDrvK, false, false⟩, ⟨0, [str! "V"], [str! "O"], 0, exDrvK / 12, false, false⟩]

noncomputable def exDrvJump (a b a' b' : Str) : ℝ :=
  exDrvK / 12 * (
      (if a = str! "V" ∧ b = str! "V" ∧ a' = str! "O" ∧ b' = str! "O" then 8 else 0) +
      (if a = str! "O" ∧ b = str! "O" ∧ a' = str! "V" ∧ b' = str! "V" then 2 else 0) +
      (if a = str! "O" ∧ a' = str! "V" ∧ b' = b then 12 else 0) + (if b = str! "O" ∧ b' = str! "V" ∧ a' = a then 12 else 0) +
      (if a = str! "V" ∧ a' = str! "O" ∧ b' = b then 1 else 0) + (if b = str! "V" ∧ b' = str! "O" ∧ a' = a then 1 else 0))

theorem exDrv_stationary (c : Config (Fin 2) [str! "V", str! "O"]) :
    ∑ c' : Config (Fin 2) [str! "V", str! "O"], exDrvWeight (c' 0).1 (c' 1).1 * configRate exDrvPlace exDrvProcs _ c' c
      = ∑ c', exDrvWeight (c 0).1 (c 1).1 * configRate exDrvPlace exDrvProcs _ c c' := by
  have hJ : ∀ c c' : Config (Fin 2) [str! "V", str! "O"], configRate exDrvPlace exDrvProcs _ c c' = exDrvJump (c 0).1 (c 1).1 (c' 0).1 (c' 1).1 :=
    fun c c' => exDrv_jump _ _
  simp only [hJ]
  rw [sum_config_two fun a b => exDrvWeight a b * exDrvJump a b (c 0).1 (c 1).1,
    sum_config_two fun a b => exDrvWeight (c 0).1 (c 1).1 * exDrvJump (c 0).1 (c 1).1 a b]
  have h0 := (c 0).2
  have h1 := (c 1).2
  simp only [List.mem_cons, List.not_mem_nil, or_false] at h0 h1
  have hne : (str! "V") ≠ str! "O" := by decide
  rcases h0 with h0 | h0 <;> rcases h1 with h1 | h1 <;> rw [h0, h1] <;> simp [exDrvWeight, exDrvJump] <;> ring

/-- **C129** (refuted) Away from equilibrium the two models have different steady states although their rates come from the same energies and every
reaction has as many places as there are sites: oxygen adsorbs as molecules on two neighbouring sites and leaves as atoms; the mean field
model ends with a third of the sites covered, the lattice of two sites, from every beginning, with 57 of 166. -/
theorem C129_driven_refuted : ∃ procs m, Ready exDrvMF (fun _ => 1) exDrvP (fun _ => 1) ∧
    SameRates exDrvMF exDrvP exDrvOwner .TST exDrvRel [exDrvK, exDrvK] [exDrvK / 12, exDrvK / 12] ∧
    ShowsNetwork exDrvMF exDrvType [str! "V", str! "O"] exDrvDicts ∧
    getProcesses (latticeOwner exDrvOwner .TST exDrvRel [str! "V", str! "O"]) exDrvDicts [] = (.ok procs, m) ∧
    (∀ d ∈ exDrvDicts, shapeCount exDrvPlace d = 2) ∧ AllReached exDrvPlace procs [str! "V", str! "O"] ∧
    (∀ v, 0 ≤ v → v ≤ 1 → (steadyStateFunction exDrvMF ([exDrvK, exDrvK], [exDrvK / 12, exDrvK / 12]) [v] = .ok [0] ↔ v = 1 / 3)) ∧
    ∃ x : Config (Fin 2) [str! "V", str! "O"] → ℝ,
      (∀ c, ∃ cov, recordCoverages [str! "V", str! "O"] (str! "V") [(1 : ℝ)] (List.ofFn fun s => (c s).1) = .ok cov ∧ cov[1]? = some (x c)) ∧
      ∀ p, Master exDrvPlace procs [str! "V", str! "O"] p → ∑ c, p 0 c = 1 →
        Filter.Tendsto (fun t => ∑ c, p t c * x c) Filter.atTop (nhds (57 / 166)) := by
  have hK : 0 < exDrvK := by
    have := kBeV_pos
    have := heV_pos
    unfold exDrvK
    positivity
  have hpos : ∀ p ∈ exDrvProcs, 0 < p.rate := by
    intro p hp
    simp only [exDrvProcs, List.mem_cons, List.not_mem_nil, or_false] at hp
    rcases hp with rfl | rfl | rfl | rfl <;> dsimp only <;> positivity
  have hre : AllReached exDrvPlace exDrvProcs [str! "V", str! "O"] := by
    refine C125_adsorption _ _ _ _ _ exDrv_procs hpos [str! "V", str! "O"] (str! "V") (by simp) ?_
    intro t ht hne s
    have : t = str! "O" := by
      simp only [List.mem_cons, List.not_mem_nil, or_false] at ht
      exact ht.resolve_left hne
    subst this
    refine ⟨_, List.mem_cons_of_mem _ List.mem_cons_self, rfl, (exDrv_shows.plain _ (List.mem_cons_of_mem _ List.mem_cons_self)).2, Or.inr ⟨rfl, rfl⟩, 0,
      List.mem_singleton.mpr rfl, 0, List.mem_singleton.mpr rfl, ?_⟩
    revert s
    decide
  refine ⟨exDrvProcs, _, exDrv_ready, exDrv_same, exDrv_shows, exDrv_procs, ?_, hre, ?_, ?_⟩
  · intro d hd
    simp only [exDrvDicts, List.mem_cons, List.not_mem_nil, or_false] at hd
    rcases hd with rfl | rfl <;> simp [shapeCount, exDrvPlace]
  · intro v h0 h1
    rw [exDrv_steady]
    constructor
    · intro h
      have h2 := (List.cons.inj (Except.ok.inj h)).1
      have h3 : 6 * v ^ 2 - 29 * v + 9 = 0 := by
        rcases mul_eq_zero.mp h2 with h | h
        · linarith
        · exact h
      have h4 : (3 * v - 1) * (2 * v - 9) = 0 := by linarith
      rcases mul_eq_zero.mp h4 with h | h <;> linarith
    · rintro rfl
      norm_num
  · have recs : ∀ c : Config (Fin 2) [str! "V", str! "O"], _ := fun c => C52_coverages_partial [str! "V", str! "O"] (str! "V") [(1 : ℝ)]
      ((List.ofFn fun s => (c s).1).map fun t => [t]) (by decide) (by decide) (by simp) (by simp) (by
        intro l hl
        obtain ⟨t, -, rfl⟩ := List.mem_map.mp hl
        rfl)
    have hflat : ∀ c : Config (Fin 2) [str! "V", str! "O"], ((List.ofFn fun s => (c s).1).map fun t => [t]).flatten = List.ofFn fun s => (c s).1 := by
      intro c
      simp
    choose cov h1 h2 h3 h4 h5 using recs
    let X : Str → Str → ℝ := fun a b => ((if a = str! "O" then 1 else 0) + (if b = str! "O" then 1 else 0)) / 2
    refine ⟨fun c => X (c 0).1 (c 1).1, fun c => ⟨cov c, by rw [← hflat c]; exact h1 c, ?_⟩, ?_⟩
    · rw [h4 c 1 (str! "O") rfl (by decide)]
      simp [cellWeight, X]
    · intro p hp hp0
      obtain ⟨π, -, -, hu, l, hl, hf⟩ := C125_steady exDrvPlace exDrvProcs (fun p hp => (hpos p hp).le) [str! "V", str! "O"] (by simp) hre
      have hq := (hu fun c => exDrvWeight (c 0).1 (c 1).1).mp exDrv_stationary
      have hone : ∑ c : Config (Fin 2) [str! "V", str! "O"], exDrvWeight (c 0).1 (c 1).1 = 1 := by
        rw [sum_config_two exDrvWeight]
        simp [exDrvWeight]
        norm_num
      obtain ⟨A, -, hA⟩ := hf p hp
      have hlim : ∀ c, Filter.Tendsto (fun t => p t c) Filter.atTop (nhds (exDrvWeight (c 0).1 (c 1).1)) := by
        intro c
        refine tendsto_of_exp (A := A) hl fun t ht => ?_
        have := hA t ht c
        have e := hq c
        rw [hone, one_mul] at e
        rw [hp0, one_mul, ← e] at this
        exact this
      have := tendsto_finsetSum Finset.univ fun c (_ : c ∈ Finset.univ) => (hlim c).mul_const (X (c 0).1 (c 1).1)
      rw [sum_config_two fun a b => exDrvWeight a b * X a b] at this
      convert this using 2
      simp [exDrvWeight, X]
      norm_num

end Verif
