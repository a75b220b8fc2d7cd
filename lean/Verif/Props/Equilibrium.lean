import Verif.Props.Flow
import Verif.Lemmas.Lyapunov
/-
Property C96: if the gas and the surface can be in equilibrium, then every steady state is an
equilibrium, without turnover; it is determined by the conserved amounts, stable, and attracts the
solutions of the coverage equations. Without equilibrium there can be several steady states.
-/
namespace Verif
open Dict
open Set (Icc Ioo)
open Filter Topology
set_option linter.unusedSectionVars false

/-! ### specification -/

/-- Every reaction stands still: forward and reverse rates are equal. -/
def Standstill (o : MFOwner ℝ) (k : List ℝ × List ℝ) (v : Str → ℝ) : Prop :=
  ∃ rfs rrs, getRates o k (o.net.ads.map v) = .ok (rfs, rrs) ∧ rfs = rrs

/-- A weight per surface species and free site whose total no reaction changes. -/
def Conserved (n : Network) (w : Str → ℝ) : Prop :=
  ∀ states ∈ n.rxns, (n.siteCols.map fun x => (produced x states : ℝ) * w x).sum = 0

/-- Two states of the surface with the same amount of everything that no reaction changes. -/
def SameAmounts (n : Network) (θ θ' : Str → ℝ) : Prop :=
  ∀ w, Conserved n w → (n.siteCols.map fun x => w x * θ x).sum = (n.siteCols.map fun x => w x * θ' x).sum

/-- Distance in free energy from a reference state, in units of `k T`. -/
noncomputable def excess (n : Network) (ref θ : Str → ℝ) : ℝ :=
  (n.siteCols.map fun x => θ x * Real.log (θ x / ref x) - θ x + ref x).sum

/-- Positive rate constants and activities. -/
structure Live (o : MFOwner ℝ) (total P C : Str → ℝ) (kf kr : List ℝ) (v : Str → ℝ) : Prop where
  kf : ∀ k ∈ kf, 0 < k
  kr : ∀ k ∈ kr, 0 < k
  act : AllPositive o.net P C (coverage o.net total v)

/-! ### helpers -/

/-- A formula of a clean end state is listed, its activity is that of its name. -/
theorem clean_activity {rxns : List Str} {n : Network} (h : parseNetwork rxns = .ok n) {f : Formula}
    (hf : OccursIn rxns f) (h1 : specKind f.species f.site ≠ .ts)
    (h2 : specKind f.species f.site = .empty → f.speciesSite = str! "*_" ++ f.site) (P C θ : Str → ℝ) :
    f.speciesSite ∈ allCols n ∧ specAct P C θ f = activity n P C θ f.speciesSite := by
  obtain ⟨l1, l2, -⟩ := listed_iff h hf
  have once := C08_listed_exactly_once _ _ h f hf
  have hgas : f.speciesSite ∈ n.gas ↔ specKind f.species f.site = .gas :=
    (once .gas).trans ⟨fun x => x.1, fun x => ⟨x, by decide⟩⟩
  have hliq : f.speciesSite ∈ n.liq ↔ specKind f.species f.site = .liquid :=
    (once .liquid).trans ⟨fun x => x.1, fun x => ⟨x, by decide⟩⟩
  refine ⟨?_, ?_⟩
  · unfold allCols
    rw [List.mem_append]
    cases hk : specKind f.species f.site with
    | gas => exact Or.inr (l1.mpr (Or.inl hk))
    | liquid => exact Or.inr (l1.mpr (Or.inr hk))
    | ts => exact absurd hk h1
    | ads => exact Or.inl (l2 hk)
    | empty =>
      left
      have hne : f.site ≠ str! "g" ∧ f.site ≠ str! "l" := by
        constructor <;> intro e <;> simp [specKind, e] at hk
      unfold Network.siteCols
      rw [List.mem_append, C08_site_names _ _ h]
      exact Or.inl ⟨f, hf, hne.1, hne.2, h2 hk⟩
  · unfold activity specAct
    cases hk : specKind f.species f.site with
    | gas => rw [if_pos (hgas.mpr hk)]
    | liquid => rw [if_neg (by rw [hgas, hk]; decide), if_pos (hliq.mpr hk)]
    | ts => exact absurd hk h1
    | ads => rw [if_neg (by rw [hgas, hk]; decide), if_neg (by rw [hliq, hk]; decide)]
    | empty => rw [if_neg (by rw [hgas, hk]; decide), if_neg (by rw [hliq, hk]; decide)]

/-- The weighted logarithms of the activities add up to that of the state. -/
theorem statePotential_log {n : Network} {P C θ φ : Str → ℝ} {fs : List Formula}
    (h : ∀ f ∈ fs, f.speciesSite ∈ allCols n ∧ specAct P C θ f = activity n P C θ f.speciesSite ∧
      specAct P C φ f = activity n P C φ f.speciesSite)
    (hθ : AllPositive n P C θ) (hφ : AllPositive n P C φ) :
    statePotential (fun x => Real.log (activity n P C θ x) - Real.log (activity n P C φ x)) fs
      = Real.log (stateActivity P C θ fs) - Real.log (stateActivity P C φ fs) := by
  induction fs with
  | nil => simp [statePotential, stateActivity]
  | cons f fs ih =>
    obtain ⟨e1, e2, e3⟩ := h f (by simp)
    have hfs : ∀ g ∈ fs, _ := fun g hg => h g (by simp [hg])
    have ih := ih hfs
    have hp : ∀ ψ, AllPositive n P C ψ → (∀ g ∈ fs, specAct P C ψ g = activity n P C ψ g.speciesSite) →
        0 < stateActivity P C ψ fs := fun ψ hψ he => stateActivity_pos fun g hg => by
      rw [he g hg]; exact hψ _ (hfs g hg).1
    have hA : ∀ ψ, stateActivity P C ψ (f :: fs) = specAct P C ψ f ^ f.stoich * stateActivity P C ψ fs := by
      intro ψ
      unfold stateActivity
      rw [List.map_cons, List.prod_cons]
    have hS : ∀ μ, statePotential μ (f :: fs) = (f.stoich : ℝ) * μ f.speciesSite + statePotential μ fs := by
      intro μ
      unfold statePotential
      rw [List.map_cons, List.sum_cons]
    rw [hS, hA, hA, ih, e2, e3, Real.log_mul (pow_pos (hθ _ e1) _).ne' (hp θ hθ fun g hg => (hfs g hg).2.1).ne',
      Real.log_mul (pow_pos (hφ _ e1) _).ne' (hp φ hφ fun g hg => (hfs g hg).2.2).ne', Real.log_pow, Real.log_pow]
    ring

/-- What a reaction does to the weighted logarithms of the surface species. -/
theorem affinity {rxns : List Str} {n : Network} (h : parseNetwork rxns = .ok n) {P C θ φ : Str → ℝ}
    (hθ : AllPositive n P C θ) (hφ : AllPositive n P C φ) {st : List (List Formula)} (hcl : RateClean st) {is fs : List Formula}
    (e1 : st.head? = some is) (e2 : st.getLast? = some fs)
    (h1 : ∀ f ∈ is, OccursIn rxns f) (h2 : ∀ f ∈ fs, OccursIn rxns f) :
    (n.siteCols.map fun x => (produced x st : ℝ) * (Real.log (θ x) - Real.log (φ x))).sum
      = (Real.log (stateActivity P C θ fs) - Real.log (stateActivity P C φ fs))
        - (Real.log (stateActivity P C θ is) - Real.log (stateActivity P C φ is)) := by
  have hform : ∀ gs, (st.head? = some gs ∨ st.getLast? = some gs) → (∀ f ∈ gs, OccursIn rxns f) →
      ∀ f ∈ gs, f.speciesSite ∈ allCols n ∧ specAct P C θ f = activity n P C θ f.speciesSite ∧
        specAct P C φ f = activity n P C φ f.speciesSite := by
    intro gs hgs hocc f hf
    have a := clean_activity h (hocc f hf) (hcl.1.1 gs hgs f hf).1 (hcl.1.2 gs hgs f hf) P C θ
    have b := clean_activity h (hocc f hf) (hcl.1.1 gs hgs f hf).1 (hcl.1.2 gs hgs f hf) P C φ
    exact ⟨a.1, a.2, b.2⟩
  have k1 := hform is (Or.inl e1) h1
  have k2 := hform fs (Or.inr e2) h2
  rw [← statePotential_log k1 hθ hφ, ← statePotential_log k2 hθ hφ,
    ← sum_produced h e1 e2 (fun f hf => (k1 f hf).1) (fun f hf => (k2 f hf).1)]
  rw [show allCols n = n.siteCols ++ (n.gas ++ n.liq) from rfl, List.map_append, List.sum_append]
  rw [sum_map_zero (n.gas ++ n.liq), add_zero]
  · congr 1
    apply List.map_congr_left
    intro x hx
    rw [activity_site h P C θ hx, activity_site h P C φ hx]
  · intro x hx
    rw [activity_gas P C θ φ hx, sub_self, mul_zero]

/-- Forward and reverse rate of each reaction at given activities of the surface. -/
noncomputable def ratePairs (o : MFOwner ℝ) (P C κf κr θ : Str → ℝ) : List (ℝ × ℝ) :=
  List.zipWith (fun states r => (rateOf P C θ (κf r) states.head?, rateOf P C θ (κr r) states.getLast?)) o.net.rxns o.rxns

theorem flow_pairs (o : MFOwner ℝ) (P C κf κr θ : Str → ℝ) (x : Str) :
    flow o.net o.rxns P C κf κr θ x
      = (List.zipWith (fun states r => (produced x states : ℝ) * r) o.net.rxns ((ratePairs o P C κf κr θ).map fun p => p.1 - p.2)).sum := by
  unfold flow ratePairs
  generalize o.net.rxns = rs
  generalize o.rxns = ts
  congr 1
  induction rs generalizing ts with
  | nil => simp
  | cons st rs ih =>
    cases ts with
    | nil => simp
    | cons t ts =>
      simp only [List.zipWith_cons_cons, List.map_cons, ih]

theorem ratePairs_length {o : MFOwner ℝ} (h : parseNetwork o.rxns = .ok o.net) (P C κf κr θ : Str → ℝ) :
    (ratePairs o P C κf κr θ).length = o.rxns.length := by
  unfold ratePairs
  rw [List.length_zipWith, length_rxns h, min_self]

theorem getRates_pairs {o : MFOwner ℝ} {total P C : Str → ℝ} {kf kr : List ℝ} {κf κr : Str → ℝ}
    (h : FlowOk o total P C kf kr κf κr) (v : Str → ℝ) :
    getRates o (kf, kr) (o.net.ads.map v) = .ok ((ratePairs o P C κf κr (coverage o.net total v)).map (·.1),
      (ratePairs o P C κf κr (coverage o.net total v)).map (·.2)) := by
  obtain ⟨rfs, rrs, h1, h2, h3, h4⟩ := getRates_ok h.ready h.clean v kf kr κf κr h.kf h.kr
  have hl := length_rxns h.ready.parse
  have hlp := ratePairs_length h.ready.parse P C κf κr (coverage o.net total v)
  rw [h1]
  have key : ∀ (i : Nat) (hi : i < o.rxns.length), rfs[i]? = some ((ratePairs o P C κf κr (coverage o.net total v))[i]'(by omega)).1 ∧
      rrs[i]? = some ((ratePairs o P C κf κr (coverage o.net total v))[i]'(by omega)).2 := by
    intro i hi
    obtain ⟨st, is, fs, g1, g2, -, g4, g5, -, -⟩ := states_ok h.ready.parse hi
    obtain ⟨ra, rb⟩ := h4 i hi st is fs g1 g4 g5
    rw [List.getElem?_eq_getElem (by omega)] at g2
    unfold ratePairs
    simp only [List.getElem_zipWith, Option.some.inj g2, g4, g5, rateOf]
    exact ⟨ra, rb⟩
  congr 2
  · apply List.ext_getElem
    · rw [List.length_map]; omega
    · intro i hi1 hi2
      have := (key i (by omega)).1
      rw [List.getElem?_eq_getElem hi1] at this
      rw [List.getElem_map]
      exact Option.some.inj this
  · apply List.ext_getElem
    · rw [List.length_map]; omega
    · intro i hi1 hi2
      have := (key i (by omega)).2
      rw [List.getElem?_eq_getElem hi1] at this
      rw [List.getElem_map]
      exact Option.some.inj this

theorem standstill_iff {o : MFOwner ℝ} {total P C : Str → ℝ} {kf kr : List ℝ} {κf κr : Str → ℝ}
    (h : FlowOk o total P C kf kr κf κr) (v : Str → ℝ) :
    Standstill o (kf, kr) v ↔ ∀ p ∈ ratePairs o P C κf κr (coverage o.net total v), p.1 = p.2 := by
  unfold Standstill
  rw [getRates_pairs h v]
  constructor
  · rintro ⟨rfs, rrs, e, rfl⟩
    obtain ⟨e1, e2⟩ := Prod.mk.inj (Except.ok.inj e)
    rw [← e2] at e1
    exact List.map_inj_left.mp e1
  · intro hp
    exact ⟨_, _, rfl, List.map_inj_left.mpr hp⟩

/-- What an index of a pair of rates stands for. -/
theorem ratePairs_at {o : MFOwner ℝ} (h : parseNetwork o.rxns = .ok o.net) (hc : ∀ states ∈ o.net.rxns, RateClean states)
    {i : Nat} (hi : i < o.rxns.length) :
    ∃ st is fs, o.net.rxns[i]? = some st ∧ RateClean st ∧ st.head? = some is ∧ st.getLast? = some fs ∧
      (∀ f ∈ is, OccursIn o.rxns f) ∧ (∀ f ∈ fs, OccursIn o.rxns f) ∧
      ∀ P C κf κr θ, (ratePairs o P C κf κr θ)[i]? = some (κf o.rxns[i] * stateActivity P C θ is, κr o.rxns[i] * stateActivity P C θ fs) := by
  obtain ⟨st, is, fs, g1, g2, -, g4, g5, o1, o2⟩ := states_ok h hi
  have hl := length_rxns h
  refine ⟨st, is, fs, g2, hc st (List.mem_of_getElem? g2), g4, g5, o1, o2, ?_⟩
  intro P C κf κr θ
  rw [List.getElem?_eq_getElem (by omega)] at g2
  rw [List.getElem?_eq_getElem (by rw [ratePairs_length h]; exact hi)]
  unfold ratePairs
  simp only [List.getElem_zipWith, Option.some.inj g2, g4, g5, rateOf]

theorem kOk_pos {rxns : List Str} {k : List ℝ} {κ : Str → ℝ} (h : KOk rxns k κ) (hp : ∀ x ∈ k, 0 < x) {i : Nat}
    (hi : i < rxns.length) : 0 < κ rxns[i] :=
  hp _ (List.mem_of_getElem? (h.get i hi))

theorem state_pos {rxns : List Str} {n : Network} (h : parseNetwork rxns = .ok n) {P C θ : Str → ℝ} (hθ : AllPositive n P C θ)
    {st : List (List Formula)} (hcl : RateClean st) {gs : List Formula} (hgs : st.head? = some gs ∨ st.getLast? = some gs)
    (hocc : ∀ f ∈ gs, OccursIn rxns f) : 0 < stateActivity P C θ gs :=
  stateActivity_pos fun f hf => by
    have a := clean_activity h (hocc f hf) (hcl.1.1 gs hgs f hf).1 (hcl.1.2 gs hgs f hf) P C θ
    rw [a.2]
    exact hθ _ a.1

/-- At positive activities, relative to a state in which every reaction stands still: the affinity of
each reaction is the logarithm of the quotient of its rates. -/
theorem affinity_rates {o : MFOwner ℝ} {total P C : Str → ℝ} {kf kr : List ℝ} {κf κr : Str → ℝ}
    (h : FlowOk o total P C kf kr κf κr) (hkf : ∀ k ∈ kf, 0 < k) (hkr : ∀ k ∈ kr, 0 < k) {θ φ : Str → ℝ}
    (hθ : AllPositive o.net P C θ) (hφ : AllPositive o.net P C φ)
    (hst : ∀ p ∈ ratePairs o P C κf κr φ, p.1 = p.2) {i : Nat} (hi : i < o.rxns.length) :
    ∃ st p, o.net.rxns[i]? = some st ∧ (ratePairs o P C κf κr θ)[i]? = some p ∧ 0 < p.1 ∧ 0 < p.2 ∧
      (o.net.siteCols.map fun x => (produced x st : ℝ) * (Real.log (θ x) - Real.log (φ x))).sum
        = Real.log p.2 - Real.log p.1 := by
  obtain ⟨st, is, fs, g1, g2, g3, g4, g5, g6, g7⟩ := ratePairs_at h.ready.parse h.clean hi
  have k1 := kOk_pos h.kf hkf hi
  have k2 := kOk_pos h.kr hkr hi
  have a1 := state_pos h.ready.parse hθ g2 (Or.inl g3) g5
  have a2 := state_pos h.ready.parse hθ g2 (Or.inr g4) g6
  have b1 := state_pos h.ready.parse hφ g2 (Or.inl g3) g5
  have b2 := state_pos h.ready.parse hφ g2 (Or.inr g4) g6
  refine ⟨st, _, g1, g7 P C κf κr θ, mul_pos k1 a1, mul_pos k2 a2, ?_⟩
  rw [affinity h.ready.parse hθ hφ g2 g3 g4 g5 g6]
  have e := hst _ (List.mem_of_getElem? (g7 P C κf κr φ))
  dsimp only at e
  have e2 := congrArg Real.log e
  rw [Real.log_mul k1.ne' b1.ne', Real.log_mul k2.ne' b2.ne'] at e2
  dsimp only
  rw [Real.log_mul k1.ne' a1.ne', Real.log_mul k2.ne' a2.ne']
  linarith

/-- Sum of the squared differences of the square roots of the rates. -/
noncomputable def imbalance (o : MFOwner ℝ) (P C κf κr θ : Str → ℝ) : ℝ :=
  ((ratePairs o P C κf κr θ).map fun p => (√p.1 - √p.2) ^ 2).sum

theorem imbalance_nonneg (o : MFOwner ℝ) (P C κf κr θ : Str → ℝ) : 0 ≤ imbalance o P C κf κr θ := by
  unfold imbalance
  apply List.sum_nonneg
  intro x hx
  obtain ⟨p, -, rfl⟩ := List.mem_map.mp hx
  exact sq_nonneg _

theorem sum_zip_le {α β : Type} (f : α → β → ℝ) (g : β → ℝ) (l : List α) (r : List β) (hlen : l.length = r.length)
    (h : ∀ (i : Nat) a b, l[i]? = some a → r[i]? = some b → f a b ≤ g b) :
    (List.zipWith f l r).sum ≤ (r.map g).sum := by
  induction l generalizing r with
  | nil =>
    cases r with
    | nil => simp
    | cons => simp at hlen
  | cons a l ih =>
    cases r with
    | nil => simp at hlen
    | cons x r =>
      have i1 := ih r (by simpa using hlen) fun i a b ha hb => h (i + 1) a b (by simpa using ha) (by simpa using hb)
      have h1 := h 0 a x rfl rfl
      rw [List.zipWith_cons_cons, List.sum_cons, List.map_cons, List.sum_cons]
      linarith

theorem dissipation {o : MFOwner ℝ} {total P C : Str → ℝ} {kf kr : List ℝ} {κf κr : Str → ℝ}
    (h : FlowOk o total P C kf kr κf κr) (hkf : ∀ k ∈ kf, 0 < k) (hkr : ∀ k ∈ kr, 0 < k) {θ φ : Str → ℝ}
    (hθ : AllPositive o.net P C θ) (hφ : AllPositive o.net P C φ)
    (hst : ∀ p ∈ ratePairs o P C κf κr φ, p.1 = p.2) :
    (o.net.siteCols.map fun x => flow o.net o.rxns P C κf κr θ x * (Real.log (θ x) - Real.log (φ x))).sum
      ≤ - imbalance o P C κf κr θ := by
  have hl := length_rxns h.ready.parse
  have hlp := ratePairs_length h.ready.parse P C κf κr θ
  simp only [flow_pairs]
  rw [production_swap, List.zipWith_map_right]
  unfold imbalance
  rw [← sum_map_neg']
  apply sum_zip_le (fun st (p : ℝ × ℝ) => (p.1 - p.2) * (o.net.siteCols.map fun x => (produced x st : ℝ) * (Real.log (θ x) - Real.log (φ x))).sum)
    (fun p => -(√p.1 - √p.2) ^ 2) _ _ (by omega)
  intro i st p h1 h2
  have hi : i < o.rxns.length := by
    have := (List.getElem?_eq_some_iff.mp h1).1
    omega
  obtain ⟨st', p', g1, g2, g3, g4, g5⟩ := affinity_rates h hkf hkr hθ hφ hst hi
  rw [g1] at h1; cases h1
  rw [g2] at h2; cases h2
  rw [g5]
  have := Flow.gap g3 g4
  linarith

theorem imbalance_zero {o : MFOwner ℝ} {P C κf κr θ : Str → ℝ} (hn : ∀ p ∈ ratePairs o P C κf κr θ, 0 ≤ p.1 ∧ 0 ≤ p.2)
    (h : imbalance o P C κf κr θ = 0) : ∀ p ∈ ratePairs o P C κf κr θ, p.1 = p.2 := by
  unfold imbalance at h
  intro p hp
  have := List.single_le_sum (l := (ratePairs o P C κf κr θ).map fun p => (√p.1 - √p.2) ^ 2) (fun x hx => by
    obtain ⟨p, -, rfl⟩ := List.mem_map.mp hx
    exact sq_nonneg _) _ (List.mem_map_of_mem hp)
  rw [h] at this
  have h0 : √p.1 - √p.2 = 0 := pow_eq_zero_iff (two_ne_zero) |>.mp (le_antisymm this (sq_nonneg _))
  exact (Real.sqrt_inj (hn p hp).1 (hn p hp).2).mp (by linarith)

theorem steady_flow {o : MFOwner ℝ} {total P C : Str → ℝ} {kf kr : List ℝ} {κf κr : Str → ℝ}
    (h : FlowOk o total P C kf kr κf κr) (v : Str → ℝ) (m : Nat)
    (hst : steadyStateFunction o (kf, kr) (o.net.ads.map v) = .ok (List.replicate m 0)) :
    ∀ x ∈ o.net.siteCols, flow o.net o.rxns P C κf κr (coverage o.net total v) x = 0 := by
  rw [h.derivs] at hst
  have hst := Except.ok.inj hst
  have hads : ∀ a ∈ o.net.ads, flow o.net o.rxns P C κf κr (coverage o.net total v) a = 0 := fun a ha =>
    List.eq_of_mem_replicate (hst ▸ List.mem_map_of_mem ha)
  intro x hx
  unfold Network.siteCols at hx
  rcases List.mem_append.mp hx with e | e
  · have := flow_totals h.ready h.clean h.kf h.kr h.one h.nsite (coverage o.net total v) x e
    rw [sum_map_zero, zero_add] at this
    · exact this
    · intro a ha
      exact hads a (List.mem_filter.mp ha).1
  · exact hads x e

theorem live_pairs {o : MFOwner ℝ} {total P C : Str → ℝ} {kf kr : List ℝ} {κf κr : Str → ℝ}
    (h : FlowOk o total P C kf kr κf κr) (hkf : ∀ k ∈ kf, 0 < k) (hkr : ∀ k ∈ kr, 0 < k) {θ : Str → ℝ}
    (hθ : AllPositive o.net P C θ) : ∀ p ∈ ratePairs o P C κf κr θ, 0 < p.1 ∧ 0 < p.2 := by
  intro p hp
  obtain ⟨i, hi, rfl⟩ := List.mem_iff_getElem.mp hp
  rw [ratePairs_length h.ready.parse] at hi
  obtain ⟨st, is, fs, g1, g2, g3, g4, g5, g6, g7⟩ := ratePairs_at h.ready.parse h.clean hi
  have e := g7 P C κf κr θ
  rw [List.getElem?_eq_getElem (by rw [ratePairs_length h.ready.parse]; exact hi)] at e
  rw [Option.some.inj e]
  exact ⟨mul_pos (kOk_pos h.kf hkf hi) (state_pos h.ready.parse hθ g2 (Or.inl g3) g5),
    mul_pos (kOk_pos h.kr hkr hi) (state_pos h.ready.parse hθ g2 (Or.inr g4) g6)⟩

/-! ## C96 -/

/-- If the gas and the surface can be in equilibrium (coverages `e` at which every reaction stands
still), then every steady state with all species present is an equilibrium: every reaction stands
still and all turnover frequencies are zero. Missing: networks and end states as in C93. -/
theorem C96_no_turnover_partial (o : MFOwner ℝ) (total P C : Str → ℝ) (kf kr : List ℝ) (κf κr : Str → ℝ)
    (h : FlowOk o total P C kf kr κf κr) (e v : Str → ℝ) (he : Live o total P C kf kr e) (hv : Live o total P C kf kr v)
    (hst : Standstill o (kf, kr) e) (m : Nat)
    (hss : steadyStateFunction o (kf, kr) (o.net.ads.map v) = .ok (List.replicate m 0)) :
    Standstill o (kf, kr) v ∧ getTof o (kf, kr) (o.net.ads.map v) = .ok ((o.net.gas ++ o.net.liq).map fun _ => 0) := by
  have h1 := dissipation h he.kf he.kr hv.act he.act ((standstill_iff h e).mp hst)
  rw [sum_map_zero] at h1
  · have h2 := imbalance_zero (fun p hp => (live_pairs h he.kf he.kr hv.act p hp).imp le_of_lt le_of_lt)
      (le_antisymm (by linarith) (imbalance_nonneg o P C κf κr (coverage o.net total v)))
    refine ⟨(standstill_iff h v).mpr h2, ?_⟩
    obtain ⟨net, e1, e2, -⟩ := C26_derivatives_partial o total P C h.ready h.clean v kf kr κf κr h.kf h.kr h.one
    rw [(C69_turnover o (kf, kr) _ net h.ready.parse e1 e2).1]
    congr 1
    apply List.map_congr_left
    intro g _
    rw [production_flow h.ready h.clean v h.kf h.kr e1 g, flow_pairs]
    have hz : (ratePairs o P C κf κr (coverage o.net total v)).map (fun p => p.1 - p.2)
        = List.replicate (ratePairs o P C κf κr (coverage o.net total v)).length 0 := by
      rw [List.eq_replicate_iff]
      refine ⟨by simp, ?_⟩
      intro x hx
      obtain ⟨p, hp, rfl⟩ := List.mem_map.mp hx
      rw [h2 p hp, sub_self]
    rw [hz]
    apply List.sum_eq_zero
    intro x hx
    obtain ⟨i, hi, rfl⟩ := List.mem_iff_getElem.mp hx
    rw [List.getElem_zipWith, List.getElem_replicate, mul_zero]
  · intro x hx
    rw [steady_flow h v m hss x hx, zero_mul]

/-- Two equilibria with the same amount of everything that no reaction changes are equal. -/
theorem C96_unique_partial (o : MFOwner ℝ) (total P C : Str → ℝ) (kf kr : List ℝ) (κf κr : Str → ℝ)
    (h : FlowOk o total P C kf kr κf κr) (e v : Str → ℝ) (he : Live o total P C kf kr e) (hv : Live o total P C kf kr v)
    (hse : Standstill o (kf, kr) e) (hsv : Standstill o (kf, kr) v)
    (hsame : SameAmounts o.net (coverage o.net total v) (coverage o.net total e)) : ∀ a ∈ o.net.ads, v a = e a := by
  have hte := (standstill_iff h e).mp hse
  have htv := (standstill_iff h v).mp hsv
  have hl := length_rxns h.ready.parse
  have hpos : ∀ u, AllPositive o.net P C (coverage o.net total u) → ∀ x ∈ o.net.siteCols, 0 < coverage o.net total u x := by
    intro u hu x hx
    have := hu x (by unfold allCols; exact List.mem_append_left _ hx)
    rwa [activity_site h.ready.parse P C _ hx] at this
  have hw : Conserved o.net (fun x => Real.log (coverage o.net total v x) - Real.log (coverage o.net total e x)) := by
    intro st hst
    obtain ⟨i, hi, rfl⟩ := List.mem_iff_getElem.mp hst
    obtain ⟨st', p, g1, g2, -, -, g5⟩ := affinity_rates h he.kf he.kr hv.act he.act hte (i := i) (by omega)
    rw [List.getElem?_eq_getElem hi] at g1
    rw [Option.some.inj g1, g5, htv p (List.mem_of_getElem? g2), sub_self]
  have key := hsame _ hw
  rw [← sub_eq_zero, sub_eq_add_neg, ← sum_map_neg', ← sum_map_add'] at key
  have hz : ∀ x ∈ o.net.siteCols, (coverage o.net total v x - coverage o.net total e x)
      * (Real.log (coverage o.net total v x) - Real.log (coverage o.net total e x)) = 0 := by
    intro x hx
    have hnn : ∀ y ∈ o.net.siteCols, 0 ≤ (coverage o.net total v y - coverage o.net total e y)
      * (Real.log (coverage o.net total v y) - Real.log (coverage o.net total e y)) := fun y hy =>
      (sq_nonneg _).trans (Flow.gap (hpos v hv.act y hy) (hpos e he.act y hy))
    refine le_antisymm ?_ (hnn x hx)
    have := List.single_le_sum (l := o.net.siteCols.map fun y => (coverage o.net total v y - coverage o.net total e y)
      * (Real.log (coverage o.net total v y) - Real.log (coverage o.net total e y))) (fun z hz => by
        obtain ⟨y, hy, rfl⟩ := List.mem_map.mp hz
        exact hnn y hy) _ (List.mem_map_of_mem hx)
    refine this.trans_eq (Eq.trans ?_ key)
    congr 1
    apply List.map_congr_left
    intro y _
    ring
  intro a ha
  have hm : a ∈ o.net.siteCols := by unfold Network.siteCols; exact List.mem_append_right _ ha
  have := Flow.gap_eq (hpos v hv.act a hm) (hpos e he.act a hm) (hz a hm)
  unfold coverage at this
  rwa [if_pos ha, if_pos ha] at this

/-- Coverages with the totals of the model agree in the amounts that depend on the sites only. -/
theorem sameAmounts_of {o : MFOwner ℝ} (hp : parseNetwork o.rxns = .ok o.net) (total v e : Str → ℝ)
    (hfull : ∀ w, Conserved o.net w → ∀ a ∈ o.net.ads, ∀ s ∈ o.net.sites, OnSite a s → w a = w s) :
    SameAmounts o.net (coverage o.net total v) (coverage o.net total e) := by
  intro w hw
  have hσ : ∃ σ : Str → Str, ∀ a ∈ o.net.ads, OnSite a (σ a) ∧ σ a ∈ o.net.sites := by
    refine ⟨fun a => match siteNameOf a with | .ok s => s | .error _ => [], ?_⟩
    intro a ha
    obtain ⟨s, hs, hon⟩ := ads_onSite hp ha
    have e : siteNameOf a = .ok s := hon
    dsimp only
    rw [e]
    exact ⟨hon, hs⟩
  obtain ⟨σ, hσ⟩ := hσ
  have hsn : o.net.sites.Nodup := by
    have := siteCols_nodup hp
    unfold Network.siteCols at this
    exact (List.nodup_append.mp this).1
  have key : ∀ u : Str → ℝ, (o.net.siteCols.map fun x => w x * coverage o.net total u x).sum
      = (o.net.sites.map fun s => w s * total s).sum := by
    intro u
    unfold Network.siteCols
    rw [List.map_append, List.sum_append]
    have h1 : (o.net.ads.map fun a => w a * coverage o.net total u a).sum = (o.net.ads.map fun a => u a * w (σ a)).sum := by
      congr 1
      apply List.map_congr_left
      intro a ha
      unfold coverage
      rw [if_pos ha, hfull w hw a ha (σ a) (hσ a ha).2 (hσ a ha).1, mul_comm]
    rw [h1, ← sum_by_site hsn u w σ hσ, ← sum_map_add']
    congr 1
    apply List.map_congr_left
    intro s hs
    unfold coverage
    rw [if_neg (sites_disjoint hp s hs)]
    ring
  rw [key, key]

/-- If moreover nothing but the numbers of sites is conserved, there is no other steady state at all
with every species present. -/
theorem C96_steady_unique_partial (o : MFOwner ℝ) (total P C : Str → ℝ) (kf kr : List ℝ) (κf κr : Str → ℝ)
    (h : FlowOk o total P C kf kr κf κr)
    (hfull : ∀ w, Conserved o.net w → ∀ a ∈ o.net.ads, ∀ s ∈ o.net.sites, OnSite a s → w a = w s)
    (e v : Str → ℝ) (he : Live o total P C kf kr e) (hv : Live o total P C kf kr v)
    (hse : Standstill o (kf, kr) e) (m : Nat)
    (hss : steadyStateFunction o (kf, kr) (o.net.ads.map v) = .ok (List.replicate m 0)) : ∀ a ∈ o.net.ads, v a = e a :=
  C96_unique_partial o total P C kf kr κf κr h e v he hv hse
    (C96_no_turnover_partial o total P C kf kr κf κr h e v he hv hse m hss).1 (sameAmounts_of h.ready.parse total v e hfull)

/-! ### the equations near and far from equilibrium -/

theorem ratePairs_congr {o : MFOwner ℝ} (h : parseNetwork o.rxns = .ok o.net)
    (hc : ∀ states ∈ o.net.rxns, RateClean states) (P C κf κr : Str → ℝ) {θ θ' : Str → ℝ}
    (he : ∀ x ∈ o.net.siteCols, θ x = θ' x) : ratePairs o P C κf κr θ = ratePairs o P C κf κr θ' := by
  apply List.ext_getElem?
  intro i
  by_cases hi : i < o.rxns.length
  · obtain ⟨st, is, fs, g1, g2, g3, g4, g5, g6, g7⟩ := ratePairs_at h hc hi
    rw [g7, g7]
    have key : ∀ gs, (st.head? = some gs ∨ st.getLast? = some gs) → (∀ f ∈ gs, OccursIn o.rxns f) →
        stateActivity P C θ gs = stateActivity P C θ' gs := by
      intro gs hgs hocc
      apply stateActivity_congr
      intro f hf
      have a := clean_activity h (hocc f hf) (g2.1.1 gs hgs f hf).1 (g2.1.2 gs hgs f hf) P C θ
      have b := clean_activity h (hocc f hf) (g2.1.1 gs hgs f hf).1 (g2.1.2 gs hgs f hf) P C θ'
      rw [a.2, b.2]
      have hm := a.1
      unfold allCols at hm
      rcases List.mem_append.mp hm with hx | hx
      · rw [activity_site h P C _ hx, activity_site h P C _ hx, he _ hx]
      · exact activity_gas P C θ θ' hx
    rw [key is (Or.inl g3) g5, key fs (Or.inr g4) g6]
  · rw [List.getElem?_eq_none (by rw [ratePairs_length h]; omega), List.getElem?_eq_none (by rw [ratePairs_length h]; omega)]

theorem imbalance_continuous (o : MFOwner ℝ) (P C κf κr : Str → ℝ) :
    Continuous fun y => imbalance o P C κf κr (extend o.net.siteCols y) := by
  have hrate : ∀ k st, Continuous fun y => rateOf P C (extend o.net.siteCols y) k st := by
    intro k st
    unfold rateOf
    cases st with
    | none => exact continuous_const
    | some fs =>
      refine continuous_const.mul ?_
      unfold stateActivity
      induction fs with
      | nil => simpa using continuous_const
      | cons f fs ih =>
        simp only [List.map_cons, List.prod_cons]
        refine Continuous.mul (Continuous.pow ?_ _) ih
        unfold specAct
        cases specKind f.species f.site with
        | gas => exact continuous_const
        | liquid => exact continuous_const
        | ts => exact (extend_contDiff _ _).continuous
        | ads => exact (extend_contDiff _ _).continuous
        | empty => exact (extend_contDiff _ _).continuous
  unfold imbalance ratePairs
  generalize o.net.rxns = rs
  generalize o.rxns = ts
  induction rs generalizing ts with
  | nil => simpa using continuous_const
  | cons st rs ih =>
    cases ts with
    | nil => simpa using continuous_const
    | cons t ts =>
      simp only [List.zipWith_cons_cons, List.map_cons, List.sum_cons]
      exact (((hrate _ _).sqrt.sub (hrate _ _).sqrt).pow 2).add (ih ts)

/-- Positive on the surface columns, with the gases and liquids of a live state. -/
theorem allPositive_of {o : MFOwner ℝ} {total P C : Str → ℝ} {kf kr : List ℝ} {κf κr : Str → ℝ}
    (h : FlowOk o total P C kf kr κf κr) {e : Str → ℝ} (he : Live o total P C kf kr e) {θ : Str → ℝ}
    (hθ : ∀ x ∈ o.net.siteCols, 0 < θ x) : AllPositive o.net P C θ := by
  intro x hx
  unfold allCols at hx
  rcases List.mem_append.mp hx with e' | e'
  · rw [activity_site h.ready.parse P C _ e']; exact hθ x e'
  · rw [activity_gas P C _ (coverage o.net total e) e']
    exact he.act x (by unfold allCols; exact List.mem_append_right _ e')

theorem live_theta {o : MFOwner ℝ} {total P C : Str → ℝ} {kf kr : List ℝ} {κf κr : Str → ℝ}
    (h : FlowOk o total P C kf kr κf κr) {e : Str → ℝ} (he : Live o total P C kf kr e) :
    ∀ x ∈ o.net.siteCols, 0 < coverage o.net total e x := by
  intro x hx
  have := he.act x (by unfold allCols; exact List.mem_append_left _ hx)
  rwa [activity_site h.ready.parse P C _ hx] at this

theorem live_physical {o : MFOwner ℝ} {total P C : Str → ℝ} {kf kr : List ℝ} {κf κr : Str → ℝ}
    (h : FlowOk o total P C kf kr κf κr) {e : Str → ℝ} (he : Live o total P C kf kr e) : PhysicalState o total P C e kf kr := by
  have hg : ∀ g ∈ o.net.gas ++ o.net.liq, 0 < activity o.net P C (coverage o.net total e) g := fun g hg =>
    he.act g (by unfold allCols Network.reaproCols; exact List.mem_append_right _ hg)
  refine ⟨fun k hk => (he.kf k hk).le, fun k hk => (he.kr k hk).le, ?_, ?_, fun x hx => (live_theta h he x hx).le⟩
  · intro g hg'
    have := hg g (List.mem_append_left _ hg')
    unfold activity at this
    rw [if_pos hg'] at this
    exact this.le
  · intro g hg'
    have hno : g ∉ o.net.gas := by
      intro hg2
      have := (reaproCols_nodup h.ready.parse)
      unfold Network.reaproCols at this
      rw [List.nodup_append] at this
      exact this.2.2 g hg2 g hg' rfl
    have := hg g (List.mem_append_right _ hg')
    unfold activity at this
    rw [if_neg hno, if_pos hg'] at this
    exact this.le

theorem conserved_flow {o : MFOwner ℝ} {w : Str → ℝ} (hw : Conserved o.net w) (P C κf κr θ : Str → ℝ) :
    (o.net.siteCols.map fun x => flow o.net o.rxns P C κf κr θ x * w x).sum = 0 := by
  simp only [flow_pairs]
  rw [production_swap]
  apply List.sum_eq_zero
  intro x hx
  obtain ⟨i, hi, rfl⟩ := List.mem_iff_getElem.mp hx
  rw [List.getElem_zipWith, hw _ (List.getElem_mem _), mul_zero]

/-- One for everything at a site. -/
noncomputable def siteWeight (n : Network) (s x : Str) : ℝ := if x = s ∨ (x ∈ n.ads ∧ OnSite x s) then 1 else 0

theorem siteWeight_sum {o : MFOwner ℝ} (hp : parseNetwork o.rxns = .ok o.net) {s : Str} (hs : s ∈ o.net.sites) (θ : Str → ℝ) :
    (o.net.siteCols.map fun x => siteWeight o.net s x * θ x).sum = θ s + ((o.net.ads.filter fun a => OnSite a s).map θ).sum := by
  have hsn : o.net.sites.Nodup := by
    have := siteCols_nodup hp
    unfold Network.siteCols at this
    exact (List.nodup_append.mp this).1
  have hdis := sites_disjoint hp
  unfold Network.siteCols
  rw [List.map_append, List.sum_append]
  congr 1
  · have : ∀ l : List Str, l.Nodup → s ∈ l → (∀ x ∈ l, x ∉ o.net.ads) → (l.map fun x => siteWeight o.net s x * θ x).sum = θ s := by
      intro l
      induction l with
      | nil => intro _ h; simp at h
      | cons x l ih =>
        intro hn hm hd
        rw [List.nodup_cons] at hn
        rw [List.map_cons, List.sum_cons]
        by_cases e : x = s
        · subst e
          rw [sum_map_zero]
          · unfold siteWeight
            rw [if_pos (Or.inl rfl), one_mul, add_zero]
          · intro y hy
            unfold siteWeight
            rw [if_neg, zero_mul]
            rintro (rfl | ⟨h1, -⟩)
            · exact hn.1 hy
            · exact hd y (List.mem_cons_of_mem _ hy) h1
        · rw [ih hn.2 (by
            rcases List.mem_cons.mp hm with h | h
            · exact absurd h.symm e
            · exact h) fun y hy => hd y (List.mem_cons_of_mem _ hy)]
          unfold siteWeight
          rw [if_neg, zero_mul, zero_add]
          rintro (h1 | ⟨h1, -⟩)
          · exact e h1
          · exact hd x (by simp) h1
    exact this _ hsn hs hdis
  · have : ∀ l : List Str, (∀ x ∈ l, x ∈ o.net.ads) → (l.map fun x => siteWeight o.net s x * θ x).sum = ((l.filter fun a => OnSite a s).map θ).sum := by
      intro l
      induction l with
      | nil => simp
      | cons x l ih =>
        intro hd
        rw [List.map_cons, List.sum_cons, ih fun y hy => hd y (List.mem_cons_of_mem _ hy)]
        have hx := hd x (by simp)
        by_cases e : OnSite x s
        · rw [List.filter_cons_of_pos (by simpa using e), List.map_cons, List.sum_cons]
          unfold siteWeight
          rw [if_pos (Or.inr ⟨hx, e⟩), one_mul]
        · rw [List.filter_cons_of_neg (by simpa using e)]
          unfold siteWeight
          rw [if_neg, zero_mul, zero_add]
          rintro (rfl | ⟨-, h1⟩)
          · exact hdis x hs hx
          · exact e h1
    exact this _ fun _ h => h

theorem pairs_nonneg {o : MFOwner ℝ} {total P C : Str → ℝ} {kf kr : List ℝ} {κf κr : Str → ℝ}
    (h : FlowOk o total P C kf kr κf κr) {e : Str → ℝ} (he : Live o total P C kf kr e) {θ : Str → ℝ}
    (hθ : ∀ x ∈ o.net.siteCols, 0 ≤ θ x) : ∀ p ∈ ratePairs o P C κf κr θ, 0 ≤ p.1 ∧ 0 ≤ p.2 := by
  intro p hp
  obtain ⟨i, hi, rfl⟩ := List.mem_iff_getElem.mp hp
  rw [ratePairs_length h.ready.parse] at hi
  obtain ⟨st, is, fs, g1, g2, g3, g4, g5, g6, g7⟩ := ratePairs_at h.ready.parse h.clean hi
  have ee := g7 P C κf κr θ
  rw [List.getElem?_eq_getElem (by rw [ratePairs_length h.ready.parse]; exact hi)] at ee
  rw [Option.some.inj ee]
  have key : ∀ gs, (st.head? = some gs ∨ st.getLast? = some gs) → (∀ f ∈ gs, OccursIn o.rxns f) →
      0 ≤ stateActivity P C θ gs := by
    intro gs hgs hocc
    unfold stateActivity
    apply List.prod_nonneg
    intro x hx
    obtain ⟨f, hf, rfl⟩ := List.mem_map.mp hx
    have a := clean_activity h.ready.parse (hocc f hf) (g2.1.1 gs hgs f hf).1 (g2.1.2 gs hgs f hf) P C θ
    apply pow_nonneg
    rw [a.2]
    have hm := a.1
    unfold allCols at hm
    rcases List.mem_append.mp hm with hx | hx
    · rw [activity_site h.ready.parse P C _ hx]; exact hθ _ hx
    · rw [activity_gas P C θ (coverage o.net total e) hx]
      exact (he.act _ a.1).le
  exact ⟨mul_nonneg (kOk_pos h.kf he.kf hi).le (key is (Or.inl g3) g5), mul_nonneg (kOk_pos h.kr he.kr hi).le (key fs (Or.inr g4) g6)⟩

/-- Conserved by every reaction, or the number of sites of a kind. -/
def Kept (n : Network) (w : Str → ℝ) : Prop := Conserved n w ∨ ∃ s ∈ n.sites, ∀ x ∈ n.siteCols, w x = siteWeight n s x

theorem kept_flow {o : MFOwner ℝ} {total P C : Str → ℝ} {kf kr : List ℝ} {κf κr : Str → ℝ}
    (h : FlowOk o total P C kf kr κf κr) {w : Str → ℝ} (hw : Kept o.net w) (θ : Str → ℝ) :
    (o.net.siteCols.map fun x => flow o.net o.rxns P C κf κr θ x * w x).sum = 0 := by
  rcases hw with hw | ⟨s, hs, hw⟩
  · exact conserved_flow hw P C κf κr θ
  · have h1 : (o.net.siteCols.map fun x => flow o.net o.rxns P C κf κr θ x * w x)
        = o.net.siteCols.map fun x => siteWeight o.net s x * flow o.net o.rxns P C κf κr θ x := by
      apply List.map_congr_left
      intro x hx
      rw [hw x hx, mul_comm]
    rw [h1, siteWeight_sum h.ready.parse hs, add_comm]
    exact flow_totals h.ready h.clean h.kf h.kr h.one h.nsite θ s hs

theorem coverage_sites {o : MFOwner ℝ} (hp : parseNetwork o.rxns = .ok o.net) (total u : Str → ℝ) {s : Str} (hs : s ∈ o.net.sites) :
    coverage o.net total u s + ((o.net.ads.filter fun a => OnSite a s).map (coverage o.net total u)).sum = total s := by
  have h2 : (o.net.ads.filter fun a => OnSite a s).map (coverage o.net total u) = (o.net.ads.filter fun a => OnSite a s).map u := by
    apply List.map_congr_left
    intro a ha
    unfold coverage
    rw [if_pos (List.mem_filter.mp ha).1]
  rw [h2]
  unfold coverage
  rw [if_neg (sites_disjoint hp s hs)]
  ring

theorem attracting {o : MFOwner ℝ} {total P C : Str → ℝ} {kf kr : List ℝ} {κf κr : Str → ℝ}
    (h : FlowOk o total P C kf kr κf κr) {e : Str → ℝ} (he : Live o total P C kf kr e) (hse : Standstill o (kf, kr) e) :
    Flow.Attracting (field o P C κf κr) (fun i => coverage o.net total e i.1)
      (fun w => Kept o.net (extend o.net.siteCols w)) (fun y => imbalance o P C κf κr (extend o.net.siteCols y)) where
  pos i := live_theta h he i.1 i.2
  cont := imbalance_continuous o P C κf κr
  nonneg y _ := imbalance_nonneg _ _ _ _ _ _
  diss y hy := by
    have hext : ∀ x ∈ o.net.siteCols, 0 < extend o.net.siteCols y x := fun x hx => by
      unfold extend; rw [dif_pos hx]; exact hy ⟨x, hx⟩
    have := dissipation h he.kf he.kr (allPositive_of h he hext) he.act ((standstill_iff h e).mp hse)
    refine le_trans (le_of_eq ?_) this
    rw [← sum_cols (siteCols_nodup h.ready.parse)]
    apply Finset.sum_congr rfl
    rintro ⟨x, hx⟩ _
    unfold field
    have e1 : extend o.net.siteCols y x = y ⟨x, hx⟩ := by unfold extend; rw [dif_pos hx]
    rw [Real.log_div (hy _).ne' (live_theta h he x hx).ne', e1]
  cons w hw y := by
    have := kept_flow h hw (extend o.net.siteCols y)
    rw [← sum_cols (siteCols_nodup h.ready.parse)] at this
    rw [← this]
    apply Finset.sum_congr rfl
    rintro ⟨x, hx⟩ _
    have e1 : extend o.net.siteCols w x = w ⟨x, hx⟩ := by unfold extend; rw [dif_pos hx]
    unfold field
    rw [e1, mul_comm]

theorem lyap_excess {o : MFOwner ℝ} (hp : parseNetwork o.rxns = .ok o.net) (ref θ : Str → ℝ) :
    Flow.lyap (fun i : {x // x ∈ o.net.siteCols} => ref i.1) (fun i => θ i.1) = excess o.net ref θ := by
  unfold Flow.lyap excess
  rw [← sum_cols (siteCols_nodup hp)]
  rfl

/-- Along every solution of the coverage equations that begins with every species present, the
distance in free energy from an equilibrium never rises; so the coverages stay as near to the
equilibrium as they begin: each square root differs from its equilibrium value by at most the square
root of the initial distance. -/
theorem C96_stable_partial (o : MFOwner ℝ) (total P C : Str → ℝ) (kf kr : List ℝ) (κf κr : Str → ℝ)
    (h : FlowOk o total P C kf kr κf κr) (e : Str → ℝ) (he : Live o total P C kf kr e) (hse : Standstill o (kf, kr) e)
    (T : ℝ) (v : ℝ → Str → ℝ) (hv : Follows o (kf, kr) T v) (hl : Live o total P C kf kr (v 0)) :
    AntitoneOn (fun t => excess o.net (coverage o.net total e) (coverage o.net total (v t))) (Icc 0 T) ∧
    ∀ t ∈ Icc 0 T, ∀ x ∈ o.net.siteCols, (√(coverage o.net total (v t) x) - √(coverage o.net total e x)) ^ 2
      ≤ excess o.net (coverage o.net total e) (coverage o.net total (v 0)) := by
  have hA := attracting h he hse
  have hpos : ∀ t ∈ Icc 0 T, ∀ x ∈ o.net.siteCols, 0 < coverage o.net total (v t) x := fun t ht x hx =>
    C93_positive_partial o total P C kf kr κf κr h T v hv (live_physical h hl) x hx (live_theta h hl x hx) t ht
  have hmono : AntitoneOn (fun t => excess o.net (coverage o.net total e) (coverage o.net total (v t))) (Icc 0 T) := by
    have := Flow.lyap_falls hA.pos (hv.solves h) (fun t ht i => hpos t ht i.1 i.2) 0 (fun t ht => by
      have h1 := hA.diss (fun i => coverage o.net total (v t) i.1) (fun i => hpos t ⟨ht.1.le, ht.2.le⟩ i.1 i.2)
      have h2 := hA.nonneg (fun i => coverage o.net total (v t) i.1) (fun i => (hpos t ⟨ht.1.le, ht.2.le⟩ i.1 i.2).le)
      linarith)
    intro a ha b hb hab
    have := this ha hb hab
    simp only [zero_mul, add_zero, lyap_excess h.ready.parse] at this
    exact this
  refine ⟨hmono, ?_⟩
  intro t ht x hx
  refine le_trans ?_ (hmono ⟨le_rfl, ht.1.trans ht.2⟩ ht ht.1)
  dsimp only
  rw [← lyap_excess h.ready.parse]
  exact (Flow.ell_ge (hA.pos ⟨x, hx⟩) (hpos t ht x hx).le).trans
    (Flow.ell_le_lyap (y := fun i => coverage o.net total (v t) i.1) hA.pos (fun i => (hpos t ht i.1 i.2).le) ⟨x, hx⟩)

theorem extend_kept {o : MFOwner ℝ} {w : Str → ℝ} (hw : Kept o.net w) :
    Kept o.net (extend o.net.siteCols fun i => w i.1) := by
  rcases hw with hw | ⟨s, hs, hw⟩
  · left
    intro st hst
    rw [← hw st hst]
    congr 1
    apply List.map_congr_left
    intro x hx
    rw [extend_of x hx]
  · refine Or.inr ⟨s, hs, fun x hx => ?_⟩
    rw [extend_of x hx, hw x hx]

theorem converges_aux {o : MFOwner ℝ} {total P C : Str → ℝ} {kf kr : List ℝ} {κf κr : Str → ℝ}
    (h : FlowOk o total P C kf kr κf κr) (e : Str → ℝ) (he : Live o total P C kf kr e) (hse : Standstill o (kf, kr) e)
    (v : ℝ → Str → ℝ) (hv : ∀ T, Follows o (kf, kr) T v) (hl : Live o total P C kf kr (v 0))
    (hsame : SameAmounts o.net (coverage o.net total (v 0)) (coverage o.net total e))
    (hb : ∀ u, (∀ x ∈ o.net.siteCols, 0 ≤ coverage o.net total u x) → Standstill o (kf, kr) u →
      SameAmounts o.net (coverage o.net total u) (coverage o.net total e) →
      excess o.net (coverage o.net total e) (coverage o.net total u) ≤ excess o.net (coverage o.net total e) (coverage o.net total (v 0)) →
      ∀ x ∈ o.net.siteCols, 0 < coverage o.net total u x) :
    ∀ x ∈ o.net.siteCols, Tendsto (fun t => coverage o.net total (v t) x) atTop (𝓝 (coverage o.net total e x)) := by
  intro x hx
  have hA := attracting h he hse
  have hpos : ∀ t, 0 ≤ t → ∀ i : {x // x ∈ o.net.siteCols}, 0 < coverage o.net total (v t) i.1 := fun t ht i =>
    C93_positive_partial o total P C kf kr κf κr h t v (hv t) (live_physical h hl) i.1 i.2 (live_theta h hl i.1 i.2) t ⟨ht, le_rfl⟩
  have hsum : ∀ (w : {x // x ∈ o.net.siteCols} → ℝ) (θ : Str → ℝ), ∑ i, w i * θ i.1
      = (o.net.siteCols.map fun x => extend o.net.siteCols w x * θ x).sum := by
    intro w θ
    rw [← sum_cols (siteCols_nodup h.ready.parse)]
    apply Finset.sum_congr rfl
    rintro ⟨x, hx⟩ _
    have e1 : extend o.net.siteCols w x = w ⟨x, hx⟩ := by unfold extend; rw [dif_pos hx]
    rw [e1]
  refine hA.converges (y := fun t i => coverage o.net total (v t) i.1) (fun T => (hv T).solves h) hpos ?_ ?_ ⟨x, hx⟩
  · intro w hw
    rw [hsum w (coverage o.net total (v 0)), hsum w (coverage o.net total e)]
    rcases hw with hw | ⟨s, hs, hw⟩
    · exact hsame _ hw
    · have hc : ∀ θ : Str → ℝ, (o.net.siteCols.map fun x => extend o.net.siteCols w x * θ x)
          = o.net.siteCols.map fun x => siteWeight o.net s x * θ x := fun θ => by
        apply List.map_congr_left
        intro x hx
        rw [hw x hx]
      rw [hc, hc, siteWeight_sum h.ready.parse hs, siteWeight_sum h.ready.parse hs, coverage_sites h.ready.parse _ _ hs,
        coverage_sites h.ready.parse _ _ hs]
  · intro z hz hc hle hD
    have hnn : ∀ x ∈ o.net.siteCols, 0 ≤ extend o.net.siteCols z x := fun x hx => by
      unfold extend; rw [dif_pos hx]; exact hz ⟨x, hx⟩
    have hzk : ∀ w, Kept o.net w → (o.net.siteCols.map fun x => w x * extend o.net.siteCols z x).sum
        = (o.net.siteCols.map fun x => w x * coverage o.net total e x).sum := by
      intro w hw
      have := hc (fun i => w i.1) (extend_kept hw)
      rw [hsum _ (coverage o.net total e)] at this
      have e2 := hsum (fun i : {x // x ∈ o.net.siteCols} => w i.1) (extend o.net.siteCols z)
      have e3 : ∀ i : {x // x ∈ o.net.siteCols}, extend o.net.siteCols z i.1 = z i := fun i => by
        unfold extend; rw [dif_pos i.2]
      simp only [e3] at e2
      rw [e2] at this
      have e4 : ∀ θ : Str → ℝ, (o.net.siteCols.map fun x => extend o.net.siteCols (fun i => w i.1) x * θ x)
          = o.net.siteCols.map fun x => w x * θ x := fun θ => by
        apply List.map_congr_left
        intro x hx
        rw [extend_of x hx]
      rwa [e4, e4] at this
    have hzsame : SameAmounts o.net (extend o.net.siteCols z) (coverage o.net total e) := fun w hw => hzk w (Or.inl hw)
    -- the totals of the model hold for `z`
    have hcov : ∀ x ∈ o.net.siteCols, coverage o.net total (extend o.net.siteCols z) x = extend o.net.siteCols z x := by
      intro x hx
      unfold coverage
      split
      · rfl
      · rename_i hna
        have hs : x ∈ o.net.sites := by
          unfold Network.siteCols at hx
          rcases List.mem_append.mp hx with e | e
          · exact e
          · exact absurd e hna
        have h1 := hzk (siteWeight o.net x) (Or.inr ⟨x, hs, fun _ _ => rfl⟩)
        rw [siteWeight_sum h.ready.parse hs, siteWeight_sum h.ready.parse hs, coverage_sites h.ready.parse _ _ hs] at h1
        linarith
    have hst : Standstill o (kf, kr) (extend o.net.siteCols z) := by
      rw [standstill_iff h, ratePairs_congr h.ready.parse h.clean P C κf κr hcov]
      apply imbalance_zero _ hD
      exact pairs_nonneg h he hnn
    have hz' : (fun i : {x // x ∈ o.net.siteCols} => extend o.net.siteCols z i.1) = z := by
      funext i
      unfold extend
      rw [dif_pos i.2]
    have hexc : excess o.net (coverage o.net total e) (coverage o.net total (extend o.net.siteCols z))
        = Flow.lyap (fun i : {x // x ∈ o.net.siteCols} => coverage o.net total e i.1) z := by
      rw [← lyap_excess h.ready.parse]
      congr 1
      funext i
      rw [hcov i.1 i.2]
      exact congrFun hz' i
    have hpz := hb _ (fun x hx => by rw [hcov x hx]; exact hnn x hx) hst
      (by
        intro w hw
        rw [← hzsame w hw]
        congr 1
        apply List.map_congr_left
        intro x hx
        rw [hcov x hx])
      (by rw [hexc, ← lyap_excess h.ready.parse]; exact hle)
    have hlz : Live o total P C kf kr (extend o.net.siteCols z) := ⟨he.kf, he.kr, allPositive_of h he hpz⟩
    have huni := C96_unique_partial o total P C kf kr κf κr h e _ he hlz hse hst (by
        intro w hw
        rw [← hzsame w hw]
        congr 1
        apply List.map_congr_left
        intro x hx
        rw [hcov x hx])
    funext i
    rw [← congrFun hz' i]
    rw [← hcov i.1 i.2]
    unfold coverage
    split
    · exact huni _ ‹_›
    · congr 2
      apply List.map_congr_left
      intro a ha
      exact huni a (List.mem_filter.mp ha).1

/-- If no state of the surface in which some species or free site is missing lets every reaction stand
still (with the same conserved amounts), then from every beginning with all species present and these
amounts the coverages converge to the equilibrium. -/
theorem C96_converges_partial (o : MFOwner ℝ) (total P C : Str → ℝ) (kf kr : List ℝ) (κf κr : Str → ℝ)
    (h : FlowOk o total P C kf kr κf κr) (e : Str → ℝ) (he : Live o total P C kf kr e) (hse : Standstill o (kf, kr) e)
    (hb : ∀ u, PhysicalState o total P C u kf kr → Standstill o (kf, kr) u →
      SameAmounts o.net (coverage o.net total u) (coverage o.net total e) → ∀ x ∈ o.net.siteCols, coverage o.net total u x ≠ 0)
    (v : ℝ → Str → ℝ) (hv : ∀ T, Follows o (kf, kr) T v) (hl : Live o total P C kf kr (v 0))
    (hsame : SameAmounts o.net (coverage o.net total (v 0)) (coverage o.net total e)) :
    ∀ a ∈ o.net.ads, Tendsto (fun t => v t a) atTop (𝓝 (e a)) := by
  intro a ha
  have hm : a ∈ o.net.siteCols := by unfold Network.siteCols; exact List.mem_append_right _ ha
  have hph := live_physical h he
  have := converges_aux h e he hse v hv hl hsame (fun u hu hst hs _ x hx =>
    lt_of_le_of_ne (hu x hx) (hb u ⟨hph.kf, hph.kr, hph.gas, hph.liq, hu⟩ hst hs x hx).symm) a hm
  unfold coverage at this
  simp only [if_pos ha] at this
  exact this

/-- Without that condition, from every beginning near enough: nearer in free energy than the least
equilibrium coverage. -/
theorem C96_attracts_partial (o : MFOwner ℝ) (total P C : Str → ℝ) (kf kr : List ℝ) (κf κr : Str → ℝ)
    (h : FlowOk o total P C kf kr κf κr) (e : Str → ℝ) (he : Live o total P C kf kr e) (hse : Standstill o (kf, kr) e)
    (v : ℝ → Str → ℝ) (hv : ∀ T, Follows o (kf, kr) T v) (hl : Live o total P C kf kr (v 0))
    (hsame : SameAmounts o.net (coverage o.net total (v 0)) (coverage o.net total e))
    (hnear : ∀ x ∈ o.net.siteCols, excess o.net (coverage o.net total e) (coverage o.net total (v 0)) < coverage o.net total e x) :
    ∀ a ∈ o.net.ads, Tendsto (fun t => v t a) atTop (𝓝 (e a)) := by
  intro a ha
  have hm : a ∈ o.net.siteCols := by unfold Network.siteCols; exact List.mem_append_right _ ha
  have hpe := live_theta h he
  have := converges_aux h e he hse v hv hl hsame (fun u hu hst hs hle x hx => by
    refine lt_of_le_of_ne (hu x hx) fun h0 => ?_
    have h1 := Flow.ell_le_lyap (s := fun i : {x // x ∈ o.net.siteCols} => coverage o.net total e i.1)
      (y := fun i => coverage o.net total u i.1) (fun i => hpe i.1 i.2) (fun i => hu i.1 i.2) ⟨x, hx⟩
    rw [lyap_excess h.ready.parse] at h1
    dsimp only at h1
    rw [← h0] at h1
    unfold Flow.ell at h1
    have h2 := hnear x hx
    simp only [zero_mul, sub_zero, zero_add] at h1
    linarith) a hm
  unfold coverage at this
  simp only [if_pos ha] at this
  exact this

/-! ### existence -/

/-- What the reactions do to weights that depend on the site only. -/
theorem sites_balanced {o : MFOwner ℝ} {total P C : Str → ℝ} {kf kr : List ℝ} {κf κr : Str → ℝ}
    (h : FlowOk o total P C kf kr κf κr) {st : List (List Formula)} (hst : st ∈ o.net.rxns) {s : Str} (hs : s ∈ o.net.sites) :
    ((o.net.ads.filter fun a => OnSite a s).map fun a => (produced a st : ℝ)).sum + (produced s st : ℝ) = 0 := by
  obtain ⟨g, -, hg1, hg2, hsg, -⟩ := nameCount_site h.ready.parse hs
  rw [← site_weights h.ready.parse h.nsite hs hg1 hg2 hsg (fun x => (produced x st : ℝ))]
  exact site_balance h.ready.parse hst (h.clean st hst).1 g.site

/-- If there are any positive activities of the surface species at which every reaction is balanced,
then for all positive totals of the sites there is an equilibrium. -/
theorem C96_exists_partial (o : MFOwner ℝ) (total P C : Str → ℝ) (kf kr : List ℝ) (κf κr : Str → ℝ)
    (h : FlowOk o total P C kf kr κf κr) (hkf : ∀ k ∈ kf, 0 < k) (hkr : ∀ k ∈ kr, 0 < k)
    (ht : ∀ s ∈ o.net.sites, 0 < total s) (z : Str → ℝ) (hz : AllPositive o.net P C z)
    (hbal : ∀ i (hi : i < o.rxns.length) states is fs, eqnFormulas o.rxns[i] = .ok states →
      states.head? = some is → states.getLast? = some fs →
      κf o.rxns[i] * stateActivity P C z is = κr o.rxns[i] * stateActivity P C z fs) :
    ∃ e, Live o total P C kf kr e ∧ Standstill o (kf, kr) e := by
  have hσ : ∃ σ : Str → Str, ∀ a ∈ o.net.ads, OnSite a (σ a) ∧ σ a ∈ o.net.sites := by
    refine ⟨fun a => match siteNameOf a with | .ok s => s | .error _ => [], ?_⟩
    intro a ha
    obtain ⟨s, hs, hon⟩ := ads_onSite h.ready.parse ha
    have e : siteNameOf a = .ok s := hon
    dsimp only
    rw [e]
    exact ⟨hon, hs⟩
  obtain ⟨σ, hσ⟩ := hσ
  have hsn : o.net.sites.Nodup := by
    have := siteCols_nodup h.ready.parse
    unfold Network.siteCols at this
    exact (List.nodup_append.mp this).1
  have hads : ∀ a ∈ o.net.ads, a ∈ o.net.siteCols := fun a ha => by
    unfold Network.siteCols; exact List.mem_append_right _ ha
  have hsit : ∀ a ∈ o.net.sites, a ∈ o.net.siteCols := fun a ha => by
    unfold Network.siteCols; exact List.mem_append_left _ ha
  have hzp : ∀ x ∈ o.net.siteCols, 0 < z x := by
    intro x hx
    have := hz x (by unfold allCols; exact List.mem_append_left _ hx)
    rwa [activity_site h.ready.parse P C _ hx] at this
  let tz : Str → ℝ := fun s => z s + ((o.net.ads.filter fun a => OnSite a s).map z).sum
  let c : Str → ℝ := fun s => total s / tz s
  have htz : ∀ s ∈ o.net.sites, 0 < tz s := by
    intro s hs
    have h1 := hzp s (hsit s hs)
    have h2 : 0 ≤ ((o.net.ads.filter fun a => OnSite a s).map z).sum := by
      apply List.sum_nonneg
      intro x hx
      obtain ⟨a, ha, rfl⟩ := List.mem_map.mp hx
      exact (hzp a (hads a (List.mem_filter.mp ha).1)).le
    dsimp only [tz]
    linarith
  have hcp : ∀ s ∈ o.net.sites, 0 < c s := fun s hs => div_pos (ht s hs) (htz s hs)
  let e : Str → ℝ := fun a => z a * c (σ a)
  have hon : ∀ a ∈ o.net.ads, ∀ s, OnSite a s → σ a = s := by
    intro a ha s hs
    have h1 := (hσ a ha).1
    unfold OnSite at h1 hs
    rw [h1] at hs
    exact Except.ok.inj hs
  have hce : ∀ a ∈ o.net.ads, coverage o.net total e a = z a * c (σ a) := by
    intro a ha
    unfold coverage
    rw [if_pos ha]
  have hcs : ∀ s ∈ o.net.sites, coverage o.net total e s = z s * c s := by
    intro s hs
    unfold coverage
    rw [if_neg (sites_disjoint h.ready.parse s hs)]
    have h1 : ((o.net.ads.filter fun a => OnSite a s).map e) = (o.net.ads.filter fun a => OnSite a s).map fun a => z a * c s := by
      apply List.map_congr_left
      intro a ha
      dsimp only [e]
      rw [hon a (List.mem_filter.mp ha).1 s (by simpa using (List.mem_filter.mp ha).2)]
    rw [h1, List.sum_map_mul_right]
    have h2 : total s = tz s * c s := by
      dsimp only [c]
      have := (htz s hs).ne'
      field_simp
    rw [h2]
    dsimp only [tz]
    ring
  have hep : ∀ x ∈ o.net.siteCols, 0 < coverage o.net total e x := by
    intro x hx
    unfold Network.siteCols at hx
    rcases List.mem_append.mp hx with hx | hx
    · rw [hcs x hx]; exact mul_pos (hzp x (hsit x hx)) (hcp x hx)
    · rw [hce x hx]; exact mul_pos (hzp x (hads x hx)) (hcp _ (hσ x hx).2)
  have hap : AllPositive o.net P C (coverage o.net total e) := by
    intro x hx
    unfold allCols at hx
    rcases List.mem_append.mp hx with e' | e'
    · rw [activity_site h.ready.parse P C _ e']; exact hep x e'
    · rw [activity_gas P C _ z e']
      exact hz x (by unfold allCols; exact List.mem_append_right _ e')
  refine ⟨e, ⟨hkf, hkr, hap⟩, ?_⟩
  rw [standstill_iff h]
  intro p hp
  obtain ⟨i, hi, rfl⟩ := List.mem_iff_getElem.mp hp
  have hi' := hi
  rw [ratePairs_length h.ready.parse] at hi'
  obtain ⟨st, is, fs, g0, g1, -, g3, g4, g5, g6⟩ := states_ok h.ready.parse hi'
  obtain ⟨st', is', fs', k1, k2, k3, k4, -, -, k7⟩ := ratePairs_at h.ready.parse h.clean hi'
  rw [g1] at k1; cases k1
  rw [g3] at k3; cases k3
  rw [g4] at k4; cases k4
  have q := k7 P C κf κr (coverage o.net total e)
  rw [List.getElem?_eq_getElem hi] at q
  rw [Option.some.inj q]
  dsimp only
  have ha := affinity h.ready.parse hap hz k2 g3 g4 g5 g6
  have hzero : (o.net.siteCols.map fun x => (produced x st : ℝ) * (Real.log (coverage o.net total e x) - Real.log (z x))).sum = 0 := by
    unfold Network.siteCols
    rw [List.map_append, List.sum_append]
    have h1 : (o.net.ads.map fun x => (produced x st : ℝ) * (Real.log (coverage o.net total e x) - Real.log (z x)))
        = o.net.ads.map fun a => (produced a st : ℝ) * Real.log (c (σ a)) := by
      apply List.map_congr_left
      intro a ha
      rw [hce a ha, Real.log_mul (hzp a (hads a ha)).ne' (hcp _ (hσ a ha).2).ne', add_sub_cancel_left]
    have h2 : (o.net.sites.map fun x => (produced x st : ℝ) * (Real.log (coverage o.net total e x) - Real.log (z x)))
        = o.net.sites.map fun s => (produced s st : ℝ) * Real.log (c s) := by
      apply List.map_congr_left
      intro s hs
      rw [hcs s hs, Real.log_mul (hzp s (hsit s hs)).ne' (hcp s hs).ne', add_sub_cancel_left]
    rw [h1, h2, ← sum_by_site hsn (fun a => (produced a st : ℝ)) (fun s => Real.log (c s)) σ hσ, ← sum_map_add']
    apply sum_map_zero
    intro s hs
    have := sites_balanced h (List.mem_of_getElem? g1) hs
    rw [← add_mul, add_comm, this, zero_mul]
  rw [hzero] at ha
  have hb := hbal i hi' st is fs g0 g3 g4
  have p1 := kOk_pos h.kf hkf hi'
  have p2 := kOk_pos h.kr hkr hi'
  have a1 := state_pos h.ready.parse hap k2 (Or.inl g3) g5
  have a2 := state_pos h.ready.parse hap k2 (Or.inr g4) g6
  have b1 := state_pos h.ready.parse hz k2 (Or.inl g3) g5
  have b2 := state_pos h.ready.parse hz k2 (Or.inr g4) g6
  have hlog := congrArg Real.log hb
  rw [Real.log_mul p1.ne' b1.ne', Real.log_mul p2.ne' b2.ne'] at hlog
  apply Real.log_injOn_pos (mul_pos p1 a1) (mul_pos p2 a2)
  rw [Real.log_mul p1.ne' a1.ne', Real.log_mul p2.ne' a2.ne']
  linarith

/-- Away from equilibrium of the gases the steady state need not be unique: CO oxidation with positive
rate constants at all pressures one has two steady states with every species present, with different
turnover frequencies. So what a steady-state search finds depends on where it begins. -/
theorem C96_multiple_refuted :
    let o : MFOwner ℚ := ⟨exRxns, exNet, [(str! "*_s", 1)], [(str! "CO_g", 1), (str! "O2_g", 1), (str! "CO2_g", 1)], []⟩
    let k : List ℚ × List ℚ := ([22, 35, 130], [1, 15, 20])
    o.net.ads = [str! "CO_s", str! "O_s"] ∧ o.net.gas = [str! "CO2_g", str! "CO_g", str! "O2_g"] ∧
    steadyStateFunction o k [3 / 10, 3 / 10] = .ok [0, 0] ∧ getTof o k [3 / 10, 3 / 10] = .ok [17 / 2, -17 / 2, -17 / 4] ∧
    steadyStateFunction o k [3 / 5, 1 / 10] = .ok [0, 0] ∧ getTof o k [3 / 5, 1 / 10] = .ok [6, -6, -3] := by
  decide +kernel

/-! ### an example: CO oxidation with all gases in equilibrium -/

theorem exEqui_rxns : ∃ f1 f2 f3 f4 f5 f6 f7 f8 f9 f10 f11 : Formula,
    exDriveMF.net.rxns = [[[f1, f2], [f3]], [[f4, f5], [f6]], [[f7, f8], [f9], [f10, f11]]] ∧
    (specKind f1.species f1.site = .gas ∧ f1.stoich = 1 ∧ f1.speciesSite = str! "CO_g") ∧
    (specKind f2.species f2.site = .empty ∧ f2.stoich = 1 ∧ f2.speciesSite = str! "*_s") ∧
    (specKind f3.species f3.site = .ads ∧ f3.stoich = 1 ∧ f3.speciesSite = str! "CO_s") ∧
    (specKind f4.species f4.site = .gas ∧ f4.stoich = 1 ∧ f4.speciesSite = str! "O2_g") ∧
    (specKind f5.species f5.site = .empty ∧ f5.stoich = 2 ∧ f5.speciesSite = str! "*_s") ∧
    (specKind f6.species f6.site = .ads ∧ f6.stoich = 2 ∧ f6.speciesSite = str! "O_s") ∧
    (specKind f7.species f7.site = .ads ∧ f7.stoich = 1 ∧ f7.speciesSite = str! "CO_s") ∧
    (specKind f8.species f8.site = .ads ∧ f8.stoich = 1 ∧ f8.speciesSite = str! "O_s") ∧
    (specKind f10.species f10.site = .gas ∧ f10.stoich = 1 ∧ f10.speciesSite = str! "CO2_g") ∧
    (specKind f11.species f11.site = .empty ∧ f11.stoich = 2 ∧ f11.speciesSite = str! "*_s") := by
  refine ⟨_, _, _, _, _, _, _, _, _, _, _, rfl, ?_⟩
  decide

theorem exEqui_pairs (θ : Str → ℝ) : ratePairs exDriveMF (fun _ => 1) (fun _ => 1) (fun _ => 1) (fun _ => 1) θ
    = [(θ (str! "*_s"), θ (str! "CO_s")), (θ (str! "*_s") ^ 2, θ (str! "O_s") ^ 2),
      (θ (str! "CO_s") * θ (str! "O_s"), θ (str! "*_s") ^ 2)] := by
  obtain ⟨f1, f2, f3, f4, f5, f6, f7, f8, f9, f10, f11, h, a1, a2, a3, a4, a5, a6, a7, a8, a9, a10⟩ := exEqui_rxns
  have e3 : exDriveMF.rxns = exRxns := rfl
  unfold ratePairs
  rw [h, e3]
  unfold exRxns
  simp [rateOf, stateActivity, specAct, a1, a2, a3, a4, a5, a6, a7, a8, a9, a10]

theorem exEqui_ok : FlowOk exDriveMF (fun _ => 1) (fun _ => 1) (fun _ => 1) [1, 1, 1] [1, 1, 1] (fun _ => 1) (fun _ => 1) := by
  have hk : KOk exDriveMF.rxns [(1 : ℝ), 1, 1] (fun _ => 1) := by
    constructor
    intro i hi
    have : exDriveMF.rxns.length = 3 := rfl
    have : i = 0 ∨ i = 1 ∨ i = 2 := by omega
    rcases this with rfl | rfl | rfl <;> rfl
  exact ⟨exDrive_ready, exFlow_clean, hk, hk, exFlow_one, exFlow_nsite⟩

theorem exEqui_cols : exDriveMF.net.siteCols = [str! "*_s", str! "CO_s", str! "O_s"] := by decide

theorem exEqui_star (v : Str → ℝ) : coverage exDriveMF.net (fun _ => (1 : ℝ)) v (str! "*_s") = 1 - (v (str! "CO_s") + v (str! "O_s")) := by
  have e2 : exDriveMF.net.ads = [str! "CO_s", str! "O_s"] := by decide
  have f1 : [str! "CO_s", str! "O_s"].filter (fun a => decide (OnSite a (str! "*_s"))) = [str! "CO_s", str! "O_s"] := by
    decide
  unfold coverage
  rw [e2, if_neg (by decide), f1]
  simp

theorem exEqui_ads (v : Str → ℝ) : coverage exDriveMF.net (fun _ => (1 : ℝ)) v (str! "CO_s") = v (str! "CO_s") ∧
    coverage exDriveMF.net (fun _ => (1 : ℝ)) v (str! "O_s") = v (str! "O_s") := by
  have e2 : exDriveMF.net.ads = [str! "CO_s", str! "O_s"] := by decide
  unfold coverage
  rw [e2]
  exact ⟨if_pos (by decide), if_pos (by decide)⟩

theorem exEqui_live (v : Str → ℝ) (h1 : 0 < v (str! "CO_s")) (h2 : 0 < v (str! "O_s"))
    (h3 : v (str! "CO_s") + v (str! "O_s") < 1) :
    Live exDriveMF (fun _ => 1) (fun _ => 1) (fun _ => 1) [1, 1, 1] [1, 1, 1] v := by
  refine ⟨by simp, by simp, ?_⟩
  intro x hx
  unfold allCols at hx
  rcases List.mem_append.mp hx with e | e
  · rw [activity_site exDrive_ready.parse _ _ _ e]
    rw [exEqui_cols] at e
    simp only [List.mem_cons, List.not_mem_nil, or_false] at e
    rcases e with rfl | rfl | rfl
    · rw [exEqui_star]; linarith
    · rw [(exEqui_ads v).1]; exact h1
    · rw [(exEqui_ads v).2]; exact h2
  · have e' : x ∈ exDriveMF.net.gas := by
      have e4 : exDriveMF.net.liq = [] := by decide
      unfold Network.reaproCols at e
      rw [e4, List.append_nil] at e
      exact e
    unfold activity
    rw [if_pos e']
    exact one_pos

theorem exEqui_standstill (v : Str → ℝ) : Standstill exDriveMF ([1, 1, 1], [1, 1, 1]) v ↔
    (1 - (v (str! "CO_s") + v (str! "O_s")) = v (str! "CO_s")) ∧
    ((1 - (v (str! "CO_s") + v (str! "O_s"))) ^ 2 = v (str! "O_s") ^ 2) ∧
    (v (str! "CO_s") * v (str! "O_s") = (1 - (v (str! "CO_s") + v (str! "O_s"))) ^ 2) := by
  rw [standstill_iff exEqui_ok, exEqui_pairs, exEqui_star, (exEqui_ads v).1, (exEqui_ads v).2]
  simp

theorem exEqui_full : ∀ w, Conserved exDriveMF.net w →
    ∀ a ∈ exDriveMF.net.ads, ∀ s ∈ exDriveMF.net.sites, OnSite a s → w a = w s := by
  intro w hw
  have e2 : exDriveMF.net.ads = [str! "CO_s", str! "O_s"] := by decide
  have e1 : exDriveMF.net.sites = [str! "*_s"] := by decide
  have hp : ∃ s1 s2 s3, exDriveMF.net.rxns = [s1, s2, s3] ∧
      (produced (str! "*_s") s1 = -1 ∧ produced (str! "CO_s") s1 = 1 ∧ produced (str! "O_s") s1 = 0) ∧
      (produced (str! "*_s") s2 = -2 ∧ produced (str! "CO_s") s2 = 0 ∧ produced (str! "O_s") s2 = 2) := by
    refine ⟨_, _, _, rfl, ?_⟩
    decide
  obtain ⟨s1, s2, s3, hp, ⟨a1, a2, a3⟩, b1, b2, b3⟩ := hp
  have h1 := hw s1 (by rw [hp]; simp)
  have h2 := hw s2 (by rw [hp]; simp)
  rw [exEqui_cols] at h1 h2
  simp [a1, a2, a3, b1, b2, b3] at h1 h2
  rw [e1, e2]
  simp only [List.mem_cons, List.not_mem_nil, or_false, forall_eq_or_imp, forall_eq]
  exact ⟨fun _ => by linarith, fun _ => by linarith⟩

/-- One third CO, one third O and one third free: an equilibrium; nothing else is steady, and from
every beginning with all species present the coverages converge to it. -/
example : Standstill exDriveMF ([1, 1, 1], [1, 1, 1]) (fun _ => 1 / 3) ∧
    (∀ v : Str → ℝ, Live exDriveMF (fun _ => 1) (fun _ => 1) (fun _ => 1) [1, 1, 1] [1, 1, 1] v → ∀ m,
      steadyStateFunction exDriveMF ([1, 1, 1], [1, 1, 1]) (exDriveMF.net.ads.map v) = .ok (List.replicate m 0) →
      ∀ a ∈ exDriveMF.net.ads, v a = 1 / 3) ∧
    (∀ v : ℝ → Str → ℝ, (∀ T, Follows exDriveMF ([1, 1, 1], [1, 1, 1]) T v) →
      Live exDriveMF (fun _ => 1) (fun _ => 1) (fun _ => 1) [1, 1, 1] [1, 1, 1] (v 0) →
      ∀ a ∈ exDriveMF.net.ads, Tendsto (fun t => v t a) atTop (𝓝 (1 / 3))) ∧
    ∃ v : ℝ → Str → ℝ, (∀ T, Follows exDriveMF ([1, 1, 1], [1, 1, 1]) T v) ∧
      Live exDriveMF (fun _ => 1) (fun _ => 1) (fun _ => 1) [1, 1, 1] [1, 1, 1] (v 0) ∧ v 0 (str! "O_s") = 1 / 4 := by
  have hse : Standstill exDriveMF ([1, 1, 1], [1, 1, 1]) (fun _ => 1 / 3) := by
    rw [exEqui_standstill]; norm_num
  have he := exEqui_live (fun _ => 1 / 3) (by norm_num) (by norm_num) (by norm_num)
  refine ⟨hse, fun v hv m hm => C96_steady_unique_partial _ _ _ _ _ _ _ _ exEqui_ok exEqui_full _ v he hv hse m hm, ?_, ?_⟩
  · intro v hv hl
    refine C96_converges_partial _ _ _ _ _ _ _ _ exEqui_ok _ he hse ?_ v hv hl
      (sameAmounts_of exDrive_ready.parse _ _ _ exEqui_full)
    intro u hu hst _
    rw [exEqui_standstill] at hst
    obtain ⟨h1, h2, h3⟩ := hst
    have t1 := hu.theta (str! "*_s") (by rw [exEqui_cols]; simp)
    have t3 := hu.theta (str! "O_s") (by rw [exEqui_cols]; simp)
    rw [exEqui_star] at t1
    rw [(exEqui_ads u).2] at t3
    have h4 : 1 - (u (str! "CO_s") + u (str! "O_s")) = u (str! "O_s") := (sq_eq_sq₀ t1 t3).mp h2
    rw [exEqui_cols]
    simp only [List.mem_cons, List.not_mem_nil, or_false, forall_eq_or_imp, forall_eq]
    rw [exEqui_star, (exEqui_ads u).1, (exEqui_ads u).2]
    refine ⟨?_, ?_, ?_⟩ <;> intro h0 <;> linarith
  · have hl := exEqui_live (fun _ => 1 / 4) (by norm_num) (by norm_num) (by norm_num)
    obtain ⟨v, hv0, hv⟩ := C93_exists_partial _ _ _ _ _ _ _ _ exEqui_ok _ (live_physical exEqui_ok hl)
    have c1 := hv0 (str! "CO_s") (by decide)
    have c2 := hv0 (str! "O_s") (by decide)
    exact ⟨v, hv, exEqui_live (v 0) (by rw [c1]; norm_num) (by rw [c2]; norm_num) (by rw [c1, c2]; norm_num), c2⟩

/-- From half of the sites free and a quarter covered by each the start is near enough. -/
example : ∀ x ∈ exDriveMF.net.siteCols,
    excess exDriveMF.net (coverage exDriveMF.net (fun _ => (1 : ℝ)) fun _ => 1 / 3) (coverage exDriveMF.net (fun _ => (1 : ℝ)) fun _ => 1 / 4)
      < coverage exDriveMF.net (fun _ => (1 : ℝ)) (fun _ => 1 / 3) x := by
  have h1 : excess exDriveMF.net (coverage exDriveMF.net (fun _ => (1 : ℝ)) fun _ => 1 / 3) (coverage exDriveMF.net (fun _ => (1 : ℝ)) fun _ => 1 / 4)
      < 1 / 3 := by
    unfold excess
    rw [exEqui_cols]
    simp only [List.map_cons, List.map_nil, List.sum_cons, List.sum_nil]
    rw [exEqui_star, exEqui_star, (exEqui_ads _).1, (exEqui_ads _).1, (exEqui_ads _).2, (exEqui_ads _).2]
    have l1 := Real.log_le_sub_one_of_pos (show (0 : ℝ) < 3 / 2 by norm_num)
    have l2 := Real.log_le_sub_one_of_pos (show (0 : ℝ) < 3 / 4 by norm_num)
    norm_num at l1 l2 ⊢
    linarith
  rw [exEqui_cols]
  simp only [List.mem_cons, List.not_mem_nil, or_false, forall_eq_or_imp, forall_eq]
  rw [exEqui_star, (exEqui_ads _).1, (exEqui_ads _).2]
  refine ⟨?_, ?_, ?_⟩ <;> linarith

/-- Activities one balance all reactions; so there is an equilibrium. -/
example : ∃ e, Live exDriveMF (fun _ => 1) (fun _ => 1) (fun _ => 1) [1, 1, 1] [1, 1, 1] e ∧
    Standstill exDriveMF ([1, 1, 1], [1, 1, 1]) e := by
  refine C96_exists_partial _ _ _ _ _ _ _ _ exEqui_ok (by simp) (by simp) (fun _ _ => one_pos) (fun _ => 1) ?_ ?_
  · intro x _
    unfold activity
    split
    · exact one_pos
    · split <;> exact one_pos
  · intro i _ states is fs _ _ _
    have h1 : ∀ gs : List Formula, stateActivity (fun _ => (1 : ℝ)) (fun _ => 1) (fun _ => 1) gs = 1 := by
      intro gs
      unfold stateActivity
      apply List.prod_eq_one
      intro x hx
      obtain ⟨f, -, rfl⟩ := List.mem_map.mp hx
      unfold specAct
      cases specKind f.species f.site <;> simp
    rw [h1, h1]

end Verif
