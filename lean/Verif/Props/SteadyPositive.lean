import Verif.Props.SteadyExists
import Verif.Props.Equilibrium
/-
Property C123: in the steady states of a network in which no set of surface species can block itself,
every species is present.
-/
namespace Verif
open Dict
set_option linter.unusedSectionVars false

/-! ### specification -/

/-- A set of surface species that stays away once it is away: whenever a reaction, in either direction,
produces one of them, it needs one of them. -/
def SelfBlocking (n : Network) (Z : List Str) : Prop :=
  ∀ st ∈ n.rxns, ∀ is fs, st.head? = some is → st.getLast? = some fs → ∀ x ∈ Z,
    (0 < produced x st → ∃ f ∈ is, f.speciesSite ∈ Z ∧ 0 < f.stoich) ∧
    (produced x st < 0 → ∃ f ∈ fs, f.speciesSite ∈ Z ∧ 0 < f.stoich)

/-- Every such set that is not empty contains a kind of site in all its forms: free and with each
adsorbate. -/
def Unblocked (n : Network) : Prop :=
  ∀ Z : List Str, Z ≠ [] → (∀ x ∈ Z, x ∈ n.siteCols) → SelfBlocking n Z →
    ∃ s ∈ n.sites, s ∈ Z ∧ ∀ a ∈ n.ads, OnSite a s → a ∈ Z

/-- The adsorbate has a reaction, written in either direction, that forms it from free sites of its kind
and species that are not on the surface. -/
def DirectlyAdsorbed (n : Network) (a s : Str) : Prop :=
  ∃ st ∈ n.rxns, ∃ is fs, st.head? = some is ∧ st.getLast? = some fs ∧
    ((0 < produced a st ∧ produced s st < 0 ∧ (∀ f ∈ is, f.speciesSite ∈ n.siteCols → f.speciesSite = s) ∧
        ∀ f ∈ fs, f.speciesSite ∈ n.siteCols → f.speciesSite = a) ∨
     (produced a st < 0 ∧ 0 < produced s st ∧ (∀ f ∈ fs, f.speciesSite ∈ n.siteCols → f.speciesSite = s) ∧
        ∀ f ∈ is, f.speciesSite ∈ n.siteCols → f.speciesSite = a))

/-! ### lemmas -/

theorem sum_zipWith_zero {α β : Type} (f : α → β → ℝ) (l : List α) (r : List β)
    (h : ∀ p ∈ l.zip r, 0 ≤ f p.1 p.2) (h0 : (List.zipWith f l r).sum = 0) : ∀ p ∈ l.zip r, f p.1 p.2 = 0 := by
  induction l generalizing r with
  | nil => simp
  | cons a l ih =>
    cases r with
    | nil => simp
    | cons b r =>
      rw [List.zipWith_cons_cons, List.sum_cons] at h0
      have h1 := h (a, b) (by simp)
      have h2 := sum_zipWith_nonneg f l r fun p hp => h p (by simp [hp])
      intro p hp
      rw [List.zip_cons_cons, List.mem_cons] at hp
      rcases hp with rfl | hp
      · dsimp only at *; linarith
      · exact ih r (fun p hp => h p (by simp [hp])) (by dsimp only at h1; linarith) p hp

/-- A state without activity lacks one of its species. -/
theorem stateActivity_eq_zero {P C θ : Str → ℝ} {fs : List Formula} (h : stateActivity P C θ fs = 0) :
    ∃ f ∈ fs, specAct P C θ f = 0 ∧ 0 < f.stoich := by
  unfold stateActivity at h
  rw [List.prod_eq_zero_iff] at h
  obtain ⟨f, hf, e⟩ := List.mem_map.mp h
  refine ⟨f, hf, eq_zero_of_pow_eq_zero e, ?_⟩
  by_contra hn
  have : f.stoich = 0 := by omega
  rw [this, pow_zero] at e
  exact one_ne_zero e

/-- What is absent and stays absent blocks itself. -/
theorem absent_blocks {o : MFOwner ℝ} {total P C : Str → ℝ} {kf kr : List ℝ} {κf κr : Str → ℝ}
    (h : FlowOk o total P C kf kr κf κr) (hkf : ∀ k ∈ kf, 0 < k) (hkr : ∀ k ∈ kr, 0 < k)
    (hP : ∀ g ∈ o.net.gas, 0 < P g) (hC : ∀ g ∈ o.net.liq, 0 < C g) {θ : Str → ℝ} (hθ : ∀ x ∈ o.net.siteCols, 0 ≤ θ x)
    (hst : ∀ x ∈ o.net.siteCols, θ x = 0 → flow o.net o.rxns P C κf κr θ x = 0) :
    SelfBlocking o.net (o.net.siteCols.filter fun x => decide (θ x = 0)) := by
  have hlen := length_rxns h.ready.parse
  -- activities of species
  have hnn : ∀ gs : List Formula, (∀ f ∈ gs, f.speciesSite ∈ allCols o.net ∧ specAct P C θ f = activity o.net P C θ f.speciesSite) →
      ∀ f ∈ gs, 0 ≤ specAct P C θ f ∧ (specAct P C θ f = 0 → f.speciesSite ∈ o.net.siteCols.filter fun x => decide (θ x = 0)) := by
    intro gs hgs f hf
    obtain ⟨e1, e2⟩ := hgs f hf
    rw [e2]
    unfold activity
    split
    · rename_i hg
      exact ⟨(hP _ hg).le, fun e => absurd e (hP _ hg).ne'⟩
    · split
      · rename_i hg
        exact ⟨(hC _ hg).le, fun e => absurd e (hC _ hg).ne'⟩
      · rename_i hg hl
        have : f.speciesSite ∈ o.net.siteCols := by
          unfold allCols at e1
          rcases List.mem_append.mp e1 with e | e
          · exact e
          · unfold Network.reaproCols at e
            rcases List.mem_append.mp e with e | e
            · exact absurd e (by assumption)
            · exact absurd e (by assumption)
        exact ⟨hθ _ this, fun e => List.mem_filter.mpr ⟨this, by simpa using e⟩⟩
  have hterm : ∀ x ∈ o.net.siteCols, θ x = 0 → ∀ i, i < o.rxns.length → ∀ st, o.net.rxns[i]? = some st →
      ∀ is fs, st.head? = some is → st.getLast? = some fs →
      (0 < produced x st → stateActivity P C θ fs = 0 ∧ 0 ≤ stateActivity P C θ is) ∧
      (produced x st < 0 → stateActivity P C θ is = 0 ∧ 0 ≤ stateActivity P C θ fs) := by
    intro x hx hx0 i hi st hst' is fs g3 g4
    obtain ⟨st', is', fs', g1, g2, g3', g4', g5, g6, -⟩ := ratePairs_at h.ready.parse h.clean hi
    rw [hst'] at g1; cases g1
    rw [g3] at g3'; cases g3'
    rw [g4] at g4'; cases g4'
    have a1 : ∀ f ∈ is, _ := fun f hf => clean_activity h.ready.parse (g5 f hf) (g2.1.1 is (Or.inl g3) f hf).1
      (g2.1.2 is (Or.inl g3) f hf) P C θ
    have a2 : ∀ f ∈ fs, _ := fun f hf => clean_activity h.ready.parse (g6 f hf) (g2.1.1 fs (Or.inr g4) f hf).1
      (g2.1.2 fs (Or.inr g4) f hf) P C θ
    have b1 := stateActivity_nonneg fun f hf => (hnn is a1 f hf).1
    have b2 := stateActivity_nonneg fun f hf => (hnn fs a2 f hf).1
    have hzero : ∀ gs : List Formula, (∀ f ∈ gs, f.speciesSite ∈ allCols o.net ∧ specAct P C θ f = activity o.net P C θ f.speciesSite) →
        0 < totalCoef x gs → stateActivity P C θ gs = 0 := by
      intro gs hgs hpos
      obtain ⟨f, hf, rfl, hs⟩ := totalCoef_pos hpos
      refine stateActivity_zero hf ?_ hs
      rw [(hgs f hf).2, activity_site h.ready.parse P C θ hx]
      exact hx0
    have hnt : ∀ gs : List Formula, 0 ≤ (totalCoef x gs : Int) := fun gs => by positivity
    unfold produced stateCoef
    rw [g3, g4]
    dsimp only
    refine ⟨fun hp => ⟨hzero fs a2 ?_, b1⟩, fun hp => ⟨hzero is a1 ?_, b2⟩⟩
    · have := hnt is; omega
    · have := hnt fs; omega
  intro st hst' is fs g3 g4 x hx
  obtain ⟨hx, hx0⟩ := List.mem_filter.mp hx
  have hx0 : θ x = 0 := by simpa using hx0
  obtain ⟨i, hi', hi⟩ := List.getElem_of_mem hst'
  have hi'' : i < o.rxns.length := by omega
  have hgi : o.net.rxns[i]? = some st := by rw [List.getElem?_eq_getElem hi', hi]
  -- each reaction contributes nothing
  have hall := sum_zipWith_zero _ _ _ (by
    rintro ⟨st, r⟩ hp
    obtain ⟨j, hj, e⟩ := List.getElem_of_mem hp
    rw [List.length_zip] at hj
    rw [List.getElem_zip] at e
    cases e
    have hj' : j < o.rxns.length := by omega
    obtain ⟨st', is', fs', g1, g2, g3', g4', g5, g6, -⟩ := ratePairs_at h.ready.parse h.clean hj'
    have t := hterm x hx hx0 j hj' st' g1 is' fs' g3' g4'
    rw [List.getElem?_eq_getElem (by omega)] at g1
    cases g1
    rw [g3', g4']
    unfold rateOf
    dsimp only
    have k1 := kOk_pos h.kf hkf hj'
    have k2 := kOk_pos h.kr hkr hj'
    rcases lt_trichotomy (produced x o.net.rxns[j]) 0 with hp | hp | hp
    · obtain ⟨e1, e2⟩ := t.2 hp
      have : (produced x o.net.rxns[j] : ℝ) < 0 := by exact_mod_cast hp
      rw [e1, mul_zero, zero_sub]
      nlinarith [mul_nonneg k2.le e2]
    · rw [hp]; simp
    · obtain ⟨e1, e2⟩ := t.1 hp
      have : (0 : ℝ) < produced x o.net.rxns[j] := by exact_mod_cast hp
      rw [e1, mul_zero, sub_zero]
      exact mul_nonneg this.le (mul_nonneg k1.le e2)) (hst x hx hx0) (o.net.rxns[i], o.rxns[i])
    (by
      have : (o.net.rxns.zip o.rxns)[i]? = some (o.net.rxns[i], o.rxns[i]) := by
        rw [List.getElem?_eq_getElem (by rw [List.length_zip]; omega), List.getElem_zip]
      exact List.mem_of_getElem? this)
  dsimp only at hall
  rw [hi, g3, g4] at hall
  unfold rateOf at hall
  dsimp only at hall
  obtain ⟨st', is', fs', g1, g2, g3', g4', g5, g6, -⟩ := ratePairs_at h.ready.parse h.clean hi''
  rw [hgi] at g1; cases g1
  rw [g3] at g3'; cases g3'
  rw [g4] at g4'; cases g4'
  have t := hterm x hx hx0 i hi'' st hgi is fs g3 g4
  have k1 := kOk_pos h.kf hkf hi''
  have k2 := kOk_pos h.kr hkr hi''
  constructor
  · intro hp
    obtain ⟨e1, e2⟩ := t.1 hp
    have : (0 : ℝ) < produced x st := by exact_mod_cast hp
    rw [e1, mul_zero, sub_zero] at hall
    have h0 : stateActivity P C θ is = 0 := by
      rcases mul_eq_zero.mp hall with e | e
      · exact absurd e this.ne'
      · rcases mul_eq_zero.mp e with e | e
        · exact absurd e k1.ne'
        · exact e
    obtain ⟨f, hf, f1, f2⟩ := stateActivity_eq_zero h0
    exact ⟨f, hf, (hnn is (fun f hf => clean_activity h.ready.parse (g5 f hf) (g2.1.1 is (Or.inl g3) f hf).1
      (g2.1.2 is (Or.inl g3) f hf) P C θ) f hf).2 f1, f2⟩
  · intro hp
    obtain ⟨e1, e2⟩ := t.2 hp
    have : (produced x st : ℝ) < 0 := by exact_mod_cast hp
    rw [e1, mul_zero, zero_sub] at hall
    have h0 : stateActivity P C θ fs = 0 := by
      rcases mul_eq_zero.mp hall with e | e
      · exact absurd e this.ne
      · rcases mul_eq_zero.mp (neg_eq_zero.mp e) with e | e
        · exact absurd e k2.ne'
        · exact e
    obtain ⟨f, hf, f1, f2⟩ := stateActivity_eq_zero h0
    exact ⟨f, hf, (hnn fs (fun f hf => clean_activity h.ready.parse (g6 f hf) (g2.1.1 fs (Or.inr g4) f hf).1
      (g2.1.2 fs (Or.inr g4) f hf) P C θ) f hf).2 f1, f2⟩

theorem allPositive_cover {n : Network} {total P C v : Str → ℝ} (hP : ∀ g ∈ n.gas, 0 < P g) (hC : ∀ g ∈ n.liq, 0 < C g)
    (hv : ∀ x ∈ n.siteCols, 0 < coverage n total v x) : AllPositive n P C (coverage n total v) := by
  intro x hx
  unfold activity
  split
  · exact hP _ ‹_›
  · split
    · exact hC _ ‹_›
    · unfold allCols Network.reaproCols at hx
      rcases List.mem_append.mp hx with e | e
      · exact hv x e
      · rcases List.mem_append.mp e with e | e
        · exact absurd e (by assumption)
        · exact absurd e (by assumption)

/-- In an unblocked network a set of absent species that blocks itself is empty. -/
theorem unblocked_pos {o : MFOwner ℝ} {total : Str → ℝ} (hp : parseNetwork o.rxns = .ok o.net)
    (hs : ∀ s ∈ o.net.sites, 0 < total s) (hu : Unblocked o.net) {v : Str → ℝ}
    (hv : ∀ x ∈ o.net.siteCols, 0 ≤ coverage o.net total v x)
    (hb : SelfBlocking o.net (o.net.siteCols.filter fun x => decide (coverage o.net total v x = 0))) :
    ∀ x ∈ o.net.siteCols, 0 < coverage o.net total v x := by
  by_contra hcon
  push Not at hcon
  obtain ⟨x, hx, hx0⟩ := hcon
  obtain ⟨s, hs1, hs2, hs3⟩ := hu _ (by
    intro e
    have : x ∈ o.net.siteCols.filter fun x => decide (coverage o.net total v x = 0) :=
      List.mem_filter.mpr ⟨hx, by simpa using le_antisymm hx0 (hv x hx)⟩
    rw [e] at this
    exact absurd this List.not_mem_nil) (fun x hx => (List.mem_filter.mp hx).1) hb
  have e1 : coverage o.net total v s = 0 := by simpa using (List.mem_filter.mp hs2).2
  unfold coverage at e1
  rw [if_neg (sites_disjoint hp s hs1), sum_map_zero, sub_zero] at e1
  · exact absurd e1 (hs s hs1).ne'
  · intro a ha
    obtain ⟨ha, hon⟩ := List.mem_filter.mp ha
    have := (List.mem_filter.mp (hs3 a ha (by simpa using hon))).2
    unfold coverage at this
    rw [if_pos ha] at this
    simpa using this

/-! ## C123 -/

/-- In every physical steady state of an unblocked network, with positive rate constants, pressures,
concentrations and totals, every adsorbate and every kind of free site is present. Missing: end states
with transition states or starred species, species on both sides of a reaction, adsorbates on several
sites. -/
theorem C123_present_partial (o : MFOwner ℝ) (total P C : Str → ℝ) (kf kr : List ℝ) (κf κr : Str → ℝ)
    (h : FlowOk o total P C kf kr κf κr) (hkf : ∀ k ∈ kf, 0 < k) (hkr : ∀ k ∈ kr, 0 < k)
    (hP : ∀ g ∈ o.net.gas, 0 < P g) (hC : ∀ g ∈ o.net.liq, 0 < C g) (hs : ∀ s ∈ o.net.sites, 0 < total s)
    (hu : Unblocked o.net) (v : Str → ℝ) (hv : ∀ x ∈ o.net.siteCols, 0 ≤ coverage o.net total v x) (m : Nat)
    (hst : steadyStateFunction o (kf, kr) (o.net.ads.map v) = .ok (List.replicate m 0)) :
    ∀ x ∈ o.net.siteCols, 0 < coverage o.net total v x := by
  have hall := steady_flow h v m hst
  exact unblocked_pos h.ready.parse hs hu hv (absent_blocks h hkf hkr hP hC hv fun x hx _ => hall x hx)

/-- So every forward and every reverse rate at a physical steady state is positive, and the
reversibilities of the reactions are defined and positive: no rate is divided by zero. -/
theorem C123_reversibilities_partial (o : MFOwner ℝ) (total P C : Str → ℝ) (kf kr : List ℝ) (κf κr : Str → ℝ)
    (h : FlowOk o total P C kf kr κf κr) (hkf : ∀ k ∈ kf, 0 < k) (hkr : ∀ k ∈ kr, 0 < k)
    (hP : ∀ g ∈ o.net.gas, 0 < P g) (hC : ∀ g ∈ o.net.liq, 0 < C g) (hs : ∀ s ∈ o.net.sites, 0 < total s)
    (hu : Unblocked o.net) (v : Str → ℝ) (hv : ∀ x ∈ o.net.siteCols, 0 ≤ coverage o.net total v x) (m : Nat)
    (hst : steadyStateFunction o (kf, kr) (o.net.ads.map v) = .ok (List.replicate m 0)) :
    ∃ rfs rrs l, getRates o (kf, kr) (o.net.ads.map v) = .ok (rfs, rrs) ∧ (∀ r ∈ rfs, 0 < r) ∧ (∀ r ∈ rrs, 0 < r) ∧
      reversibilities rfs rrs = .ok l ∧ l.length = o.rxns.length ∧ ∀ x ∈ l, 0 < x := by
  have hl := live_pairs h hkf hkr (allPositive_cover (total := total) hP hC
    (C123_present_partial o total P C kf kr κf κr h hkf hkr hP hC hs hu v hv m hst))
  have hlen := ratePairs_length h.ready.parse P C κf κr (coverage o.net total v)
  have p1 : ∀ r ∈ (ratePairs o P C κf κr (coverage o.net total v)).map (·.1), 0 < r := by
    intro r hr
    obtain ⟨p, hp, rfl⟩ := List.mem_map.mp hr
    exact (hl p hp).1
  have p2 : ∀ r ∈ (ratePairs o P C κf κr (coverage o.net total v)).map (·.2), 0 < r := by
    intro r hr
    obtain ⟨p, hp, rfl⟩ := List.mem_map.mp hr
    exact (hl p hp).2
  obtain ⟨l, e1, e2, e3⟩ := C61_reversibilities ((ratePairs o P C κf κr (coverage o.net total v)).map (·.1))
    ((ratePairs o P C κf κr (coverage o.net total v)).map (·.2)) (by rw [List.length_map, List.length_map]) p1
  refine ⟨_, _, l, getRates_pairs h v, p1, p2, e1, by rw [e2, List.length_map, hlen], ?_⟩
  intro x hx
  obtain ⟨i, hi, rfl⟩ := List.getElem_of_mem hx
  rw [e2, List.length_map] at hi
  obtain ⟨y, y1, y2, -⟩ := e3 i _ _ (List.getElem?_eq_getElem (by rwa [List.length_map])) (List.getElem?_eq_getElem (by rwa [List.length_map]))
  rw [List.getElem?_eq_getElem (by rwa [e2, List.length_map])] at y1
  rw [Option.some.inj y1, y2]
  exact div_pos (p2 _ (List.getElem_mem _)) (p1 _ (List.getElem_mem _))

/-- A network in which every adsorbate adsorbs directly is unblocked, whatever its other reactions. -/
theorem C123_adsorption (rxns : List Str) (n : Network) (hp : parseNetwork rxns = .ok n)
    (h : ∀ a ∈ n.ads, ∃ s ∈ n.sites, OnSite a s ∧ DirectlyAdsorbed n a s) : Unblocked n := by
  intro Z hZ hsub hb
  have key : ∀ a ∈ n.ads, ∀ s ∈ n.sites, OnSite a s → (a ∈ Z → s ∈ Z) ∧ (s ∈ Z → a ∈ Z) := by
    intro a ha s hs hon
    obtain ⟨s', hs', hon', st, hst, is, fs, e1, e2, hd⟩ := h a ha
    have : s' = s := by
      unfold OnSite at hon hon'
      rw [hon] at hon'
      exact (Except.ok.inj hon').symm
    subst this
    rcases hd with ⟨d1, d2, d3, d4⟩ | ⟨d1, d2, d3, d4⟩
    · constructor
      · intro haZ
        obtain ⟨f, hf, hfZ, -⟩ := (hb st hst is fs e1 e2 a haZ).1 d1
        rw [d3 f hf (hsub _ hfZ)] at hfZ
        exact hfZ
      · intro hsZ
        obtain ⟨f, hf, hfZ, -⟩ := (hb st hst is fs e1 e2 s' hsZ).2 d2
        rw [d4 f hf (hsub _ hfZ)] at hfZ
        exact hfZ
    · constructor
      · intro haZ
        obtain ⟨f, hf, hfZ, -⟩ := (hb st hst is fs e1 e2 a haZ).2 d1
        rw [d3 f hf (hsub _ hfZ)] at hfZ
        exact hfZ
      · intro hsZ
        obtain ⟨f, hf, hfZ, -⟩ := (hb st hst is fs e1 e2 s' hsZ).1 d2
        rw [d4 f hf (hsub _ hfZ)] at hfZ
        exact hfZ
  obtain ⟨x, hx⟩ := List.exists_mem_of_ne_nil Z hZ
  have hs : ∃ s ∈ n.sites, s ∈ Z := by
    rcases List.mem_append.mp (hsub x hx) with e | e
    · exact ⟨x, e, hx⟩
    · obtain ⟨s, hs, hon⟩ := ads_onSite hp e
      exact ⟨s, hs, (key x e s hs hon).1 hx⟩
  obtain ⟨s, hs, hsZ⟩ := hs
  exact ⟨s, hs, hsZ, fun a ha hon => (key a ha s hs hon).2 hsZ⟩

/-- So such a network has a steady state in which everything is present, for the rate constants of any
energies at a positive temperature, by transition state or by collision theory. -/
theorem C123_exists_partial (o : MFOwner ℝ) (total P C : Str → ℝ) (h : Ready o total P C)
    (hc : ∀ states ∈ o.net.rxns, RateClean states) (hone : ∀ a ∈ o.net.ads, ∀ states ∈ o.net.rxns, OneSided a states)
    (hn : ∀ a ∈ o.net.ads, ∀ f, chemFormula a = .ok f → f.nsite = 1)
    (ro : RateOwner) (hro : ro.rxns = o.rxns) (hT : 0 < ro.T) (algo : RateAlgo) (rel : RelDict ℝ) (k : List ℝ × List ℝ)
    (hk : rateConstants ro algo rel = .ok k)
    (hP : ∀ g ∈ o.net.gas, 0 < P g) (hC : ∀ g ∈ o.net.liq, 0 < C g) (hs : ∀ s ∈ o.net.sites, 0 < total s)
    (hu : Unblocked o.net) :
    ∃ v : Str → ℝ, (∀ x ∈ o.net.siteCols, 0 < coverage o.net total v x) ∧
      steadyStateFunction o k (o.net.ads.map v) = .ok (List.replicate o.net.ads.length 0) := by
  obtain ⟨kf, kr⟩ := k
  obtain ⟨-, -, κf, κr, hκf, hκr⟩ := kOk_rateConstants hk
  rw [hro] at hκf hκr
  obtain ⟨p1, p2⟩ := rateConstants_pos hT hk
  have hok : FlowOk o total P C kf kr κf κr := ⟨h, hc, hκf, hκr, hone, hn⟩
  obtain ⟨v, v1, v2, v3⟩ := C122_some_partial o total P C kf kr κf κr hok (fun k hk => (p1 k hk).le)
    (fun k hk => (p2 k hk).le) (fun g hg => (hP g hg).le) (fun g hg => (hC g hg).le) (fun s hs' => (hs s hs').le)
  refine ⟨v, C123_present_partial o total P C kf kr κf κr hok p1 p2 hP hC hs hu v ?_ _ v3, v3⟩
  intro x hx
  unfold coverage
  split
  · exact v1 x ‹_›
  · rename_i hn'
    rcases List.mem_append.mp hx with e | e
    · linarith [v2 x e]
    · exact absurd e hn'

/-- Without adsorption there may be steady states without some species: with an isomerisation only, all
rate constants positive, the empty surface is a steady state, and so is one with both species. -/
theorem C123_isolated_refuted :
    let rxns := [str! "HCO_s -> COH_s"]
    let o : MFOwner ℚ := ⟨rxns, netOf rxns, [(str! "*_s", 1)], [], []⟩
    parseNetwork rxns = .ok o.net ∧ o.net.ads = [str! "COH_s", str! "HCO_s"] ∧
    steadyStateFunction o ([1], [1]) [0, 0] = .ok [0, 0] ∧
    steadyStateFunction o ([1], [1]) [1 / 4, 1 / 4] = .ok [0, 0] := by
  decide +kernel

/-! ### an example: CO oxidation -/

/-- A test for direct adsorption. -/
def directB (n : Network) (a s : Str) : Bool :=
  n.rxns.any fun st => match st.head?, st.getLast? with
    | some is, some fs =>
      decide ((0 < produced a st ∧ produced s st < 0 ∧ (∀ f ∈ is, f.speciesSite ∈ n.siteCols → f.speciesSite = s) ∧
        ∀ f ∈ fs, f.speciesSite ∈ n.siteCols → f.speciesSite = a) ∨
       (produced a st < 0 ∧ 0 < produced s st ∧ (∀ f ∈ fs, f.speciesSite ∈ n.siteCols → f.speciesSite = s) ∧
        ∀ f ∈ is, f.speciesSite ∈ n.siteCols → f.speciesSite = a))
    | _, _ => false

theorem direct_of {n : Network} {a s : Str} (h : directB n a s = true) : DirectlyAdsorbed n a s := by
  unfold directB at h
  obtain ⟨st, hst, h⟩ := List.any_eq_true.mp h
  split at h
  · rename_i is fs e1 e2
    exact ⟨st, hst, is, fs, e1, e2, of_decide_eq_true h⟩
  · exact absurd h (by simp)

theorem exUnblocked : Unblocked exNet :=
  C123_adsorption exRxns exNet exNet_ok fun a ha => by
    have : ∀ a ∈ exNet.ads, (str! "*_s") ∈ exNet.sites ∧ OnSite a (str! "*_s") ∧ directB exNet a (str! "*_s") = true := by decide
    exact ⟨_, (this a ha).1, (this a ha).2.1, direct_of (this a ha).2.2⟩

/-- CO oxidation with the rate constants of its energies at 450 K has a steady state with CO, O and free
sites all present. -/
example : ∃ (k : List ℝ × List ℝ) (v : Str → ℝ), 0 < v (str! "CO_s") ∧ 0 < v (str! "O_s") ∧ v (str! "CO_s") + v (str! "O_s") < 1 ∧
    steadyStateFunction exDriveMF k [v (str! "CO_s"), v (str! "O_s")] = .ok [0, 0] := by
  obtain ⟨r, hr⟩ := (C12_complete_tables exDriveE exDriveMF.rxns exDriveMF.net exNet_ok).1 (by
    have hk : keys exDriveE = [str! "CO_g", str! "O2_g", str! "CO2_g", str! "*_s", str! "CO_s", str! "O_s",
      str! "CO-O_2s", str! "O-O_2s"] := rfl
    rw [hk]
    decide)
  obtain ⟨G, hG⟩ := exists_extends exDriveE
  obtain ⟨kf, kr, -, -, hk, -⟩ := C85_direction_partial exDriveMF _ _ _ exDrive_ready exFlow_clean
    (fun st hst => plainSites_of ((by decide : ∀ st ∈ exNet.rxns, plainSitesB st = true) st hst))
    (fun _ => 1 / 4) exDrive_positive exDriveE G hG ⟨exRxns, 450, [], 0, 0, false⟩ rfl (by norm_num) r hr
  obtain ⟨v, h1, h3⟩ := C123_exists_partial exDriveMF _ _ _ exDrive_ready exFlow_clean exFlow_one exFlow_nsite
    ⟨exRxns, 450, [], 0, 0, false⟩ rfl (by norm_num) _ _ (kf, kr) hk (fun _ _ => zero_lt_one) (fun _ _ => zero_lt_one)
    (fun _ _ => zero_lt_one) exUnblocked
  have e : exDriveMF.net.ads = [str! "CO_s", str! "O_s"] := by decide
  rw [exEqui_cols] at h1
  have a1 := h1 (str! "*_s") (by simp)
  have a2 := h1 (str! "CO_s") (by simp)
  have a3 := h1 (str! "O_s") (by simp)
  rw [exEqui_star] at a1
  rw [(exEqui_ads v).1] at a2
  rw [(exEqui_ads v).2] at a3
  rw [e] at h3
  exact ⟨(kf, kr), v, a2, a3, by linarith, h3⟩

end Verif
