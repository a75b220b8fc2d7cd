import Verif.Props.Fills
import Verif.Props.DeDonder
import Verif.Props.Collision
import Mathlib.LinearAlgebra.Dual.Lemmas
/-
Property C128: a network has an equilibrium exactly if its gases and liquids are in equilibrium with each other.
-/
namespace Verif
open Dict Topology

/-! ### specification -/

/-- The gases and liquids are in equilibrium with each other: no combination of the reactions that leaves the surface as it is changes
their free energy. -/
def GasesInEquilibrium (n : Network) (kT : ℝ) (G P C : Str → ℝ) : Prop :=
  ∀ w : List ℝ, w.length = n.rxns.length → ClosedOnSurface n w → gasFreeEnergy n kT G P C w = 0

/-- The condition on the constants alone: along every combination of the reactions that leaves the surface as it is, the product of
the equilibrium constants is the product of the pressures and concentrations made. -/
def ConstantsFitGases (n : Network) (P C : Str → ℝ) (kf kr : List ℝ) : Prop :=
  ∀ w : List ℝ, w.length = n.rxns.length → ClosedOnSurface n w →
    logProduct w (List.zipWith (fun f r => f / r) kf kr) = gasFreeEnergy n 1 (fun _ => 0) P C w

/-! ### helpers -/

theorem statePotential_log_act {n : Network} {P C θ : Str → ℝ} {fs : List Formula}
    (h : ∀ f ∈ fs, f.speciesSite ∈ allCols n ∧ specAct P C θ f = activity n P C θ f.speciesSite) (hθ : AllPositive n P C θ) :
    statePotential (fun x => Real.log (activity n P C θ x)) fs = Real.log (stateActivity P C θ fs) := by
  induction fs with
  | nil => simp [statePotential, stateActivity]
  | cons f fs ih =>
    obtain ⟨e1, e2⟩ := h f (by simp)
    have hfs : ∀ g ∈ fs, _ := fun g hg => h g (by simp [hg])
    have ih := ih hfs
    have hp : 0 < stateActivity P C θ fs := stateActivity_pos fun g hg => by
      rw [(hfs g hg).2]; exact hθ _ (hfs g hg).1
    have hA : stateActivity P C θ (f :: fs) = specAct P C θ f ^ f.stoich * stateActivity P C θ fs := by
      unfold stateActivity
      rw [List.map_cons, List.prod_cons]
    have hS : ∀ μ, statePotential μ (f :: fs) = (f.stoich : ℝ) * μ f.speciesSite + statePotential μ fs := by
      intro μ
      unfold statePotential
      rw [List.map_cons, List.sum_cons]
    rw [hS, hA, ih, e2, Real.log_mul (pow_pos (hθ _ e1) _).ne' hp.ne', Real.log_pow]

/-- The change of the logarithms of all activities in a reaction. -/
theorem sum_log_act {rxns : List Str} {n : Network} (h : parseNetwork rxns = .ok n) {P C θ : Str → ℝ}
    (hθ : AllPositive n P C θ) {st : List (List Formula)} (hcl : RateClean st) {is fs : List Formula}
    (e1 : st.head? = some is) (e2 : st.getLast? = some fs)
    (h1 : ∀ f ∈ is, OccursIn rxns f) (h2 : ∀ f ∈ fs, OccursIn rxns f) :
    ((allCols n).map fun x => (produced x st : ℝ) * Real.log (activity n P C θ x)).sum
      = Real.log (stateActivity P C θ fs) - Real.log (stateActivity P C θ is) := by
  have hform : ∀ gs, (st.head? = some gs ∨ st.getLast? = some gs) → (∀ f ∈ gs, OccursIn rxns f) →
      ∀ f ∈ gs, f.speciesSite ∈ allCols n ∧ specAct P C θ f = activity n P C θ f.speciesSite := by
    intro gs hgs hocc f hf
    exact clean_activity h (hocc f hf) (hcl.1.1 gs hgs f hf).1 (hcl.1.2 gs hgs f hf) P C θ
  have k1 := hform is (Or.inl e1) h1
  have k2 := hform fs (Or.inr e2) h2
  rw [← statePotential_log_act k1 hθ, ← statePotential_log_act k2 hθ,
    ← sum_produced h e1 e2 (fun f hf => (k1 f hf).1) (fun f hf => (k2 f hf).1)]

/-- A reaction is balanced exactly if the logarithms of the activities change by that of its equilibrium constant. -/
theorem balanced_iff {o : MFOwner ℝ} {total P C : Str → ℝ} {kf kr : List ℝ} {κf κr : Str → ℝ}
    (h : FlowOk o total P C kf kr κf κr) (hkf : ∀ k ∈ kf, 0 < k) (hkr : ∀ k ∈ kr, 0 < k) {θ : Str → ℝ}
    (hθ : AllPositive o.net P C θ) {i : Nat} (hi : i < o.rxns.length) {st : List (List Formula)} (hst : o.net.rxns[i]? = some st)
    {is fs : List Formula} (e1 : st.head? = some is) (e2 : st.getLast? = some fs)
    (o1 : ∀ f ∈ is, OccursIn o.rxns f) (o2 : ∀ f ∈ fs, OccursIn o.rxns f) :
    κf o.rxns[i] * stateActivity P C θ is = κr o.rxns[i] * stateActivity P C θ fs ↔
      ((allCols o.net).map fun x => (produced x st : ℝ) * Real.log (activity o.net P C θ x)).sum
        = Real.log (κf o.rxns[i] / κr o.rxns[i]) := by
  have hcl := h.clean st (List.mem_of_getElem? hst)
  have k1 := kOk_pos h.kf hkf hi
  have k2 := kOk_pos h.kr hkr hi
  have a1 := state_pos h.ready.parse hθ hcl (Or.inl e1) o1
  have a2 := state_pos h.ready.parse hθ hcl (Or.inr e2) o2
  rw [sum_log_act h.ready.parse hθ hcl e1 e2 o1 o2, Real.log_div k1.ne' k2.ne']
  constructor
  · intro e
    have e2 := congrArg Real.log e
    rw [Real.log_mul k1.ne' a1.ne', Real.log_mul k2.ne' a2.ne'] at e2
    linarith
  · intro e
    apply Real.log_injOn_pos (mul_pos k1 a1) (mul_pos k2 a2)
    rw [Real.log_mul k1.ne' a1.ne', Real.log_mul k2.ne' a2.ne']
    linarith

/-- Linear algebra: the equations `∑ x, a i x * φ x = c i` have a solution if every combination of the left sides that vanishes
has a vanishing right side. -/
theorem solve_of_annihilator {m : Nat} {X : Type} [Fintype X] (a : Fin m → X → ℝ) (c : Fin m → ℝ)
    (h : ∀ w : Fin m → ℝ, (∀ x, ∑ i, w i * a i x = 0) → ∑ i, w i * c i = 0) : ∃ φ : X → ℝ, ∀ i, ∑ x, a i x * φ x = c i := by
  classical
  let L : (X → ℝ) →ₗ[ℝ] (Fin m → ℝ) :=
    { toFun := fun φ i => ∑ x, a i x * φ x
      map_add' := by
        intro φ ψ
        funext i
        simp only [Pi.add_apply, mul_add, Finset.sum_add_distrib]
      map_smul' := by
        intro r φ
        funext i
        simp only [Pi.smul_apply, smul_eq_mul, RingHom.id_apply, Finset.mul_sum]
        apply Finset.sum_congr rfl
        intro x _
        ring }
  by_contra hno
  have hc : c ∉ LinearMap.range L := by
    rintro ⟨φ, hφ⟩
    exact hno ⟨φ, fun i => congrFun hφ i⟩
  obtain ⟨f, hf, hm⟩ := Submodule.exists_dual_map_eq_bot_of_notMem hc inferInstance
  have hexp : ∀ y : Fin m → ℝ, f y = ∑ i, f (Pi.single i 1) * y i := by
    intro y
    rw [LinearMap.pi_apply_eq_sum_univ f y]
    apply Finset.sum_congr rfl
    intro i _
    rw [smul_eq_mul, mul_comm]
    congr 2
    funext j
    rw [Pi.single_apply]
    simp only [eq_comm]
  apply hf
  rw [hexp]
  apply h
  intro x
  have h1 : f (L (Pi.single x 1)) = 0 := by
    have : f (L (Pi.single x 1)) ∈ (LinearMap.range L).map f := ⟨_, ⟨_, rfl⟩, rfl⟩
    rw [hm] at this
    exact this
  rw [hexp] at h1
  rw [← h1]
  apply Finset.sum_congr rfl
  intro i _
  congr 1
  show a i x = ∑ y, a i y * (Pi.single x (1 : ℝ) : X → ℝ) y
  rw [Finset.sum_eq_single x]
  · simp
  · intro y _ hy
    rw [Pi.single_eq_of_ne hy, mul_zero]
  · intro hx
    exact absurd (Finset.mem_univ x) hx

theorem zip_ofFn {α β γ : Type} (f : α → β → γ) (l : List α) (w : Fin l.length → β) :
    List.zipWith f l (List.ofFn w) = List.ofFn fun i : Fin l.length => f l[i] (w i) := by
  apply List.ext_getElem
  · simp
  · intro i h1 h2
    simp

theorem logProduct_own {rxns : List Str} {kf kr : List ℝ} {κf κr : Str → ℝ} (hf : KOk rxns kf κf) (hr : KOk rxns kr κr)
    (w : List ℝ) (hw : w.length = rxns.length) :
    logProduct w (List.zipWith (fun f r => f / r) kf kr) = (List.zipWith (fun r w => w * Real.log (κf r / κr r)) rxns w).sum := by
  have hlen : ∀ (k : List ℝ) κ, KOk rxns k κ → rxns.length ≤ k.length := by
    intro k κ hk
    by_contra hlt
    have := hk.get k.length (by omega)
    rw [List.getElem?_eq_none le_rfl] at this
    exact nomatch this
  have l1 := hlen _ _ hf
  have l2 := hlen _ _ hr
  unfold logProduct
  congr 1
  apply List.ext_getElem
  · simp only [List.length_zipWith]; omega
  · intro i h1 h2
    simp only [List.length_zipWith] at h1 h2
    have hi : i < rxns.length := by omega
    have e1 := hf.get i hi
    have e2 := hr.get i hi
    rw [List.getElem?_eq_getElem (by omega)] at e1 e2
    simp only [List.getElem_zipWith, Option.some.inj e1, Option.some.inj e2]

/-- If the constants fit the gases, there are activities of the surface species at which every reaction is balanced. -/
theorem activities_of_fit {o : MFOwner ℝ} {total P C : Str → ℝ} {kf kr : List ℝ} {κf κr : Str → ℝ}
    (h : FlowOk o total P C kf kr κf κr) (hkf : ∀ k ∈ kf, 0 < k) (hkr : ∀ k ∈ kr, 0 < k)
    (hP : ∀ g ∈ o.net.gas, 0 < P g) (hC : ∀ g ∈ o.net.liq, 0 < C g) (hw : ConstantsFitGases o.net P C kf kr) :
    ∃ z, AllPositive o.net P C z ∧ ∀ i (hi : i < o.rxns.length) states is fs, eqnFormulas o.rxns[i] = .ok states →
      states.head? = some is → states.getLast? = some fs →
      κf o.rxns[i] * stateActivity P C z is = κr o.rxns[i] * stateActivity P C z fs := by
  classical
  have hl := length_rxns h.ready.parse
  have hnd := siteCols_nodup h.ready.parse
  let gasPart : List (List Formula) → ℝ := fun st => ((o.net.gas ++ o.net.liq).map fun x =>
    (produced x st : ℝ) * Real.log (activity o.net P C (fun _ => 1) x)).sum
  have hsolve := solve_of_annihilator (m := o.net.rxns.length) (X := {x // x ∈ o.net.siteCols})
    (fun i x => (produced x.1 o.net.rxns[i] : ℝ))
    (fun i => Real.log (κf (o.rxns[i]'(by omega)) / κr (o.rxns[i]'(by omega))) - gasPart o.net.rxns[i]) (by
      intro w hx
      have hcl : ClosedOnSurface o.net (List.ofFn w) := by
        intro x hxm
        have := hx ⟨x, hxm⟩
        unfold production
        rw [zip_ofFn, List.sum_ofFn, ← this]
        apply Finset.sum_congr rfl
        intro i _
        ring
      have h1 := hw (List.ofFn w) (by simp) hcl
      have h2 := gasFreeEnergy_eq h.ready.parse 1 (fun _ => 0) P C (fun _ => 1) _ hcl
      rw [← h2] at h1
      have h3 : ((allCols o.net).map fun x => production o.net (List.ofFn w) x *
          potential 1 (fun _ => 0) (activity o.net P C fun _ => 1) x).sum = ∑ i, w i * gasPart o.net.rxns[i] := by
        unfold production
        rw [production_swap, zip_ofFn, List.sum_ofFn]
        apply Finset.sum_congr rfl
        intro i _
        congr 1
        show ((o.net.siteCols ++ (o.net.gas ++ o.net.liq)).map _).sum = _
        rw [List.map_append, List.sum_append, sum_map_zero o.net.siteCols, zero_add]
        · dsimp only [gasPart]
          congr 1
          apply List.map_congr_left
          intro x _
          unfold potential
          rw [zero_add, one_mul]
        · intro x hxm
          unfold potential
          rw [activity_site h.ready.parse P C _ hxm, Real.log_one, mul_zero, add_zero, mul_zero]
      rw [h3, logProduct_own h.kf h.kr _ (by simp [hl])] at h1
      simp only [mul_sub, Finset.sum_sub_distrib]
      rw [← h1, sub_eq_zero, ← List.sum_ofFn]
      congr 1
      apply List.ext_getElem
      · simp [hl]
      · intro i i1 i2
        simp)
  obtain ⟨φ, hφ⟩ := hsolve
  let z : Str → ℝ := fun x => Real.exp (extend o.net.siteCols φ x)
  have hz : AllPositive o.net P C z := by
    intro x hx
    unfold activity
    split
    · exact hP _ ‹_›
    · split
      · exact hC _ ‹_›
      · exact Real.exp_pos _
  refine ⟨z, hz, ?_⟩
  intro i hi states is fs e1 e2 e3
  obtain ⟨st, is', fs', g1, g2, -, g4, g5, o1, o2⟩ := states_ok h.ready.parse hi
  rw [e1] at g1
  cases g1
  rw [e2] at g4
  cases g4
  rw [e3] at g5
  cases g5
  rw [balanced_iff h hkf hkr hz hi g2 e2 e3 o1 o2]
  have := hφ ⟨i, by omega⟩
  rw [List.getElem?_eq_getElem (by omega)] at g2
  dsimp only [Fin.getElem_fin] at this
  rw [Option.some.inj g2] at this
  show ((o.net.siteCols ++ (o.net.gas ++ o.net.liq)).map _).sum = _
  rw [List.map_append, List.sum_append]
  have hs : (o.net.siteCols.map fun x => (produced x states : ℝ) * Real.log (activity o.net P C z x)).sum
      = ∑ x : {x // x ∈ o.net.siteCols}, (produced x.1 states : ℝ) * φ x := by
    rw [← sum_cols hnd]
    apply Finset.sum_congr rfl
    rintro ⟨x, hx⟩ _
    rw [activity_site h.ready.parse P C z hx]
    dsimp only [z]
    rw [Real.log_exp]
    unfold extend
    rw [dif_pos hx]
  have hg : ((o.net.gas ++ o.net.liq).map fun x => (produced x states : ℝ) * Real.log (activity o.net P C z x)).sum = gasPart states := by
    dsimp only [gasPart]
    congr 1
    apply List.map_congr_left
    intro x hx
    rw [activity_gas P C z (fun _ => 1) hx]
  rw [hs, hg, this, sub_add_cancel]

/-- At an equilibrium the constants fit the gases. -/
theorem fit_of_equilibrium {o : MFOwner ℝ} {total P C : Str → ℝ} {kf kr : List ℝ} {κf κr : Str → ℝ}
    (h : FlowOk o total P C kf kr κf κr) {e : Str → ℝ} (he : Live o total P C kf kr e) (hse : Standstill o (kf, kr) e) :
    ConstantsFitGases o.net P C kf kr := by
  intro w hw hcl
  have hl := length_rxns h.ready.parse
  rw [logProduct_own h.kf h.kr w (by omega), ← gasFreeEnergy_eq h.ready.parse 1 (fun _ => 0) P C (coverage o.net total e) w hcl]
  unfold production
  rw [production_swap]
  congr 1
  apply List.ext_getElem
  · simp [hl]
  · intro i i1 i2
    simp only [List.length_zipWith] at i1 i2
    have hi : i < o.rxns.length := by omega
    simp only [List.getElem_zipWith]
    congr 1
    obtain ⟨st, is, fs, g1, g2, g3, g4, g5, g6, g7⟩ := ratePairs_at h.ready.parse h.clean hi
    have hb := (standstill_iff h e).mp hse _ (List.mem_of_getElem? (g7 P C κf κr (coverage o.net total e)))
    have := (balanced_iff h he.kf he.kr he.act hi g1 g3 g4 g5 g6).mp hb
    rw [List.getElem?_eq_getElem (by omega)] at g1
    rw [← this, Option.some.inj g1]
    congr 1
    apply List.map_congr_left
    intro x _
    unfold potential
    rw [zero_add, one_mul]

/-- For constants that fit energies, along reactions that leave the surface as it is. -/
theorem gasFreeEnergy_fit {o : MFOwner ℝ} {total P C : Str → ℝ} {kf kr : List ℝ} {κf κr : Str → ℝ}
    (h : FlowOk o total P C kf kr κf κr) (hp : ∀ states ∈ o.net.rxns, PlainSites states)
    (hP : ∀ g ∈ o.net.gas, 0 < P g) (hC : ∀ g ∈ o.net.liq, 0 < C g)
    {G : Str → ℝ} {kT : ℝ} (hkT : 0 < kT) (hfit : FitConstants o.rxns kT G kf kr)
    (w : List ℝ) (hw : w.length = o.net.rxns.length) (hcl : ClosedOnSurface o.net w) :
    gasFreeEnergy o.net kT G P C w = (gasFreeEnergy o.net 1 (fun _ => 0) P C w
      - logProduct w (List.zipWith (fun f r => f / r) kf kr)) * kT := by
  have hl := length_rxns h.ready.parse
  have hz : AllPositive o.net P C (fun _ => 1) := by
    intro x hx
    unfold activity
    split
    · exact hP _ ‹_›
    · split
      · exact hC _ ‹_›
      · exact one_pos
  rw [logProduct_own h.kf h.kr w (by omega), ← gasFreeEnergy_eq h.ready.parse 1 (fun _ => 0) P C (fun _ => 1) w hcl,
    ← gasFreeEnergy_eq h.ready.parse kT G P C (fun _ => 1) w hcl]
  unfold production
  rw [production_swap, production_swap, sub_mul, eq_sub_iff_add_eq]
  have key : ∀ (A : List (List (List Formula))) (R : List Str) (w : List ℝ) (f g : List (List Formula) → ℝ) (k : Str → ℝ),
      A.length = R.length → (∀ i (h1 : i < A.length) (h2 : i < R.length), f A[i] + k R[i] * kT = g A[i] * kT) →
      (List.zipWith (fun st r => r * f st) A w).sum + (List.zipWith (fun r w => w * k r) R w).sum * kT
        = (List.zipWith (fun st r => r * g st) A w).sum * kT := by
    intro A
    induction A with
    | nil =>
      intro R w f g k hlen _
      cases R with
      | nil => simp
      | cons => simp at hlen
    | cons st A ih =>
      intro R w f g k hlen hall
      cases R with
      | nil => simp at hlen
      | cons r R =>
        cases w with
        | nil => simp
        | cons x w =>
          have h0 := hall 0 (by simp) (by simp)
          have ih := ih R w f g k (by simpa using hlen) fun i h1 h2 => hall (i + 1) (by simpa using h1) (by simpa using h2)
          simp only [List.getElem_cons_zero] at h0
          simp only [List.zipWith_cons_cons, List.sum_cons]
          linear_combination ih + x * h0
  apply key o.net.rxns o.rxns w
    (fun st => ((allCols o.net).map fun x => (produced x st : ℝ) * potential kT G (activity o.net P C fun _ => 1) x).sum)
    (fun st => ((allCols o.net).map fun x => (produced x st : ℝ) * potential 1 (fun _ => 0) (activity o.net P C fun _ => 1) x).sum)
    (fun r => Real.log (κf r / κr r)) hl
  intro i h1 hi
  obtain ⟨st, is, fs, g1, g2, -, g4, g5, o1, o2⟩ := states_ok h.ready.parse hi
  rw [List.getElem?_eq_getElem h1] at g2
  rw [Option.some.inj g2]
  have hm : st ∈ o.net.rxns := by rw [← Option.some.inj g2]; exact List.getElem_mem _
  have hst := h.clean st hm
  have hform : ∀ gs, (st.head? = some gs ∨ st.getLast? = some gs) → (∀ f ∈ gs, OccursIn o.rxns f) →
      ∀ f ∈ gs, f.speciesSite ∈ allCols o.net ∧ specAct P C (fun _ => 1) f = activity o.net P C (fun _ => 1) f.speciesSite ∧
        energyKey f = f.speciesSite := by
    intro gs hgs hocc f hf
    exact clean_formula h.ready.parse (hocc f hf) (hst.1.1 gs hgs f hf).1 (hst.1.2 gs hgs f hf)
      (hst.2 gs hgs f hf) (hp _ hm gs hgs f hf) P C (fun _ => 1)
  have fis := hform is (Or.inl g4) o1
  have ffs := hform fs (Or.inr g5) o2
  have p1 : ∀ (kT : ℝ) (G : Str → ℝ), _ := fun kT G => statePotential_eq (kT := kT) (G := G) fun f hf =>
    ⟨(fis f hf).2.1, (fis f hf).2.2, hz _ (fis f hf).1⟩
  have p2 : ∀ (kT : ℝ) (G : Str → ℝ), _ := fun kT G => statePotential_eq (kT := kT) (G := G) fun f hf =>
    ⟨(ffs f hf).2.1, (ffs f hf).2.2, hz _ (ffs f hf).1⟩
  have e0 : ∀ gs : List Formula, specEnergy (fun _ => (0 : ℝ)) gs = 0 := by
    intro gs
    unfold specEnergy
    apply sum_map_zero
    intro f _
    rw [mul_zero]
  rw [sum_produced h.ready.parse g4 g5 (fun f hf => (fis f hf).1) fun f hf => (ffs f hf).1,
    sum_produced h.ready.parse g4 g5 (fun f hf => (fis f hf).1) fun f hf => (ffs f hf).1, p1, p2, p1, p2, e0, e0]
  obtain ⟨a, b, ka, kb, -, -, hk⟩ := hfit.ratio i hi st is fs g1 g4 g5
  rw [h.kf.get i hi] at ka
  rw [h.kr.get i hi] at kb
  rw [Option.some.inj ka, Option.some.inj kb, hk, Real.log_exp]
  field_simp
  ring

/-- Constants that fit energies fit the gases exactly if the gases are in equilibrium. -/
theorem fitGases_iff {o : MFOwner ℝ} {total P C : Str → ℝ} {kf kr : List ℝ} {κf κr : Str → ℝ}
    (h : FlowOk o total P C kf kr κf κr) (hp : ∀ states ∈ o.net.rxns, PlainSites states)
    (hP : ∀ g ∈ o.net.gas, 0 < P g) (hC : ∀ g ∈ o.net.liq, 0 < C g)
    {G : Str → ℝ} {kT : ℝ} (hkT : 0 < kT) (hfit : FitConstants o.rxns kT G kf kr) :
    ConstantsFitGases o.net P C kf kr ↔ GasesInEquilibrium o.net kT G P C := by
  constructor
  · intro hw w hl hcl
    rw [gasFreeEnergy_fit h hp hP hC hkT hfit w hl hcl, hw w hl hcl, sub_self, zero_mul]
  · intro hw w hl hcl
    have := hw w hl hcl
    rw [gasFreeEnergy_fit h hp hP hC hkT hfit w hl hcl] at this
    rcases mul_eq_zero.mp this with e | e
    · linarith
    · exact absurd e hkT.ne'

/-- A solution that dissipates comes arbitrarily near to states that do not: there is one with the same conserved amounts. -/
theorem Flow.Attracting.rest {ι : Type} [Fintype ι] {G : (ι → ℝ) → ι → ℝ} {s : ι → ℝ} {W : (ι → ℝ) → Prop} {D : (ι → ℝ) → ℝ}
    (h : Flow.Attracting G s W D) {y : ℝ → ι → ℝ} (hy : ∀ T, Flow.Solves G T y) (hpos : ∀ t, 0 ≤ t → ∀ i, 0 < y t i) :
    ∃ z, (∀ i, 0 ≤ z i) ∧ (∀ w, W w → ∑ i, w i * z i = ∑ i, w i * y 0 i) ∧ D z = 0 := by
  have hmono : ∀ a b, 0 ≤ a → a ≤ b → Flow.lyap s (y b) ≤ Flow.lyap s (y a) := by
    intro a b ha hab
    have := Flow.lyap_falls h.pos (hy b) (fun t ht => hpos t ht.1) 0 (fun t ht => by
      have h1 := h.diss (y t) (hpos t ht.1.le)
      have h2 := h.nonneg (y t) (fun i => (hpos t ht.1.le i).le)
      linarith) ⟨ha, hab⟩ ⟨ha.trans hab, le_rfl⟩ hab
    simpa using this
  let K : Set (ι → ℝ) := {z | (∀ i, 0 ≤ z i) ∧ (∀ w, W w → ∑ i, w i * z i = ∑ i, w i * y 0 i) ∧ Flow.lyap s z ≤ Flow.lyap s (y 0)}
  have hclosed : IsClosed K := by
    refine IsClosed.and ?_ (IsClosed.and ?_ ?_)
    · simp only [Set.ofPred_forall]
      exact isClosed_iInter fun i => isClosed_le continuous_const (continuous_apply i)
    · simp only [Set.ofPred_forall]
      refine isClosed_iInter fun w => isClosed_iInter fun _ => isClosed_eq ?_ continuous_const
      exact continuous_finsetSum _ fun i _ => continuous_const.mul (continuous_apply i)
    · exact isClosed_le (Flow.lyap_continuous h.pos) continuous_const
  have hbdd : ∀ z ∈ K, ∀ i, z i ≤ (√(s i) + √(Flow.lyap s (y 0))) ^ 2 := by
    rintro z ⟨z1, -, z3⟩ i
    have h1 := (Flow.ell_ge (h.pos i) (z1 i)).trans ((Flow.ell_le_lyap h.pos z1 i).trans z3)
    have h2 : √(z i) - √(s i) ≤ √(Flow.lyap s (y 0)) := Real.le_sqrt_of_sq_le h1
    have h3 := Real.sq_sqrt (z1 i)
    have h4 := Real.sqrt_nonneg (z i)
    have h5 : √(z i) ≤ √(s i) + √(Flow.lyap s (y 0)) := by linarith
    rw [← h3]
    exact pow_le_pow_left₀ h4 h5 2
  have hcomp : IsCompact K := by
    apply IsCompact.of_isClosed_subset (isCompact_univ_pi fun i : ι =>
      isCompact_Icc (a := (0 : ℝ)) (b := (√(s i) + √(Flow.lyap s (y 0))) ^ 2)) hclosed
    intro z hz i _
    exact ⟨hz.1 i, hbdd z hz i⟩
  have hmem : ∀ t, 0 ≤ t → y t ∈ K := fun t ht =>
    ⟨fun i => (hpos t ht i).le, fun w hw => Flow.conserved w (h.cons w hw) (hy t) t ⟨ht, le_rfl⟩, hmono 0 t le_rfl ht⟩
  obtain ⟨z, hz, hmin⟩ := hcomp.exists_isMinOn ⟨y 0, hmem 0 le_rfl⟩ h.cont.continuousOn
  refine ⟨z, hz.1, hz.2.1, ?_⟩
  by_contra hne
  have hDz : 0 < D z := lt_of_le_of_ne (h.nonneg z hz.1) (Ne.symm hne)
  set T := (Flow.lyap s (y 0) + 1) / D z with hT
  have hL0 : 0 ≤ Flow.lyap s (y 0) := Flow.lyap_nonneg h.pos fun i => (hpos 0 le_rfl i).le
  have hT0 : 0 ≤ T := by positivity
  have := Flow.lyap_falls h.pos (hy T) (fun t ht => hpos t ht.1) (D z) (fun t ht => by
    have h1 := h.diss (y t) (hpos t ht.1.le)
    have h2 : D z ≤ D (y t) := hmin (hmem t ht.1.le)
    linarith) ⟨le_rfl, hT0⟩ ⟨hT0, le_rfl⟩ hT0
  dsimp only at this
  have h5 : D z * T = Flow.lyap s (y 0) + 1 := by
    rw [hT]; field_simp
  have h6 := Flow.lyap_nonneg h.pos (y := y T) fun i => (hpos T hT0 i).le
  rw [h5] at this
  linarith

/-- From a beginning with everything present: an equilibrium, possibly with species missing, with the same conserved amounts. -/
theorem rest_state {o : MFOwner ℝ} {total P C : Str → ℝ} {kf kr : List ℝ} {κf κr : Str → ℝ}
    (h : FlowOk o total P C kf kr κf κr) (e : Str → ℝ) (he : Live o total P C kf kr e) (hse : Standstill o (kf, kr) e)
    (v : ℝ → Str → ℝ) (hv : ∀ T, Follows o (kf, kr) T v) (hl : Live o total P C kf kr (v 0)) :
    ∃ u, (∀ x ∈ o.net.siteCols, 0 ≤ coverage o.net total u x) ∧ Standstill o (kf, kr) u ∧
      SameAmounts o.net (coverage o.net total (v 0)) (coverage o.net total u) := by
  have hA := attracting h he hse
  have hpos : ∀ t, 0 ≤ t → ∀ i : {x // x ∈ o.net.siteCols}, 0 < coverage o.net total (v t) i.1 := fun t ht i =>
    C93_positive_partial o total P C kf kr κf κr h t v (hv t) (live_physical h hl) i.1 i.2 (live_theta h hl i.1 i.2) t ⟨ht, le_rfl⟩
  have hsum : ∀ (w : {x // x ∈ o.net.siteCols} → ℝ) (θ : Str → ℝ), ∑ i, w i * θ i.1
      = (o.net.siteCols.map fun x => extend o.net.siteCols w x * θ x).sum := by
    intro w θ
    rw [← sum_cols (siteCols_nodup h.ready.parse)]
    apply Finset.sum_congr rfl
    rintro ⟨x, hx⟩ _
    have e1 : extend o.net.siteCols w x = w ⟨x, hx⟩ := by unfold extend; rw [dif_pos hx]
    rw [e1]
  obtain ⟨z, hz, hc, hD⟩ := hA.rest (y := fun t i => coverage o.net total (v t) i.1) (fun T => (hv T).solves h) hpos
  have hnn : ∀ x ∈ o.net.siteCols, 0 ≤ extend o.net.siteCols z x := fun x hx => by
    unfold extend; rw [dif_pos hx]; exact hz ⟨x, hx⟩
  have hzk : ∀ w, Kept o.net w → (o.net.siteCols.map fun x => w x * extend o.net.siteCols z x).sum
      = (o.net.siteCols.map fun x => w x * coverage o.net total (v 0) x).sum := by
    intro w hw
    have := hc (fun i => w i.1) (extend_kept hw)
    rw [hsum _ (coverage o.net total (v 0))] at this
    have e2 := hsum (fun i : {x // x ∈ o.net.siteCols} => w i.1) (extend o.net.siteCols z)
    have e3 : ∀ i : {x // x ∈ o.net.siteCols}, extend o.net.siteCols z i.1 = z i := fun i => by
      unfold extend; rw [dif_pos i.2]
    simp only [e3] at e2
    rw [e2] at this
    have e4 : ∀ θ : Str → ℝ, (o.net.siteCols.map fun x => extend o.net.siteCols (fun i => w i.1) x * θ x)
        = o.net.siteCols.map fun x => w x * θ x := fun θ => by
      apply List.map_congr_left
      intro x hx
      rw [extend_of x hx]
    rwa [e4, e4] at this
  have hcov : ∀ x ∈ o.net.siteCols, coverage o.net total (extend o.net.siteCols z) x = extend o.net.siteCols z x := by
    intro x hx
    unfold coverage
    split
    · rfl
    · rename_i hna
      have hs : x ∈ o.net.sites := by
        unfold Network.siteCols at hx
        rcases List.mem_append.mp hx with e | e
        · exact e
        · exact absurd e hna
      have h1 := hzk (siteWeight o.net x) (Or.inr ⟨x, hs, fun _ _ => rfl⟩)
      rw [siteWeight_sum h.ready.parse hs, siteWeight_sum h.ready.parse hs, coverage_sites h.ready.parse _ _ hs] at h1
      linarith
  refine ⟨extend o.net.siteCols z, fun x hx => by rw [hcov x hx]; exact hnn x hx, ?_, ?_⟩
  · rw [standstill_iff h, ratePairs_congr h.ready.parse h.clean P C κf κr hcov]
    apply imbalance_zero _ hD
    exact pairs_nonneg h he hnn
  · intro w hw
    rw [← hzk w (Or.inl hw)]
    congr 1
    apply List.map_congr_left
    intro x hx
    rw [hcov x hx]

/-! ### the property -/

/-- **C128** For any positive constants, pressures, concentrations and totals of the sites there is an equilibrium with every species
present exactly if the constants fit the gases. Missing: networks outside `FlowOk` (transition states or starred species in end
states, species on both sides, adsorbates on several sites), as in C96. -/
theorem C128_constants_partial (o : MFOwner ℝ) (total P C : Str → ℝ) (kf kr : List ℝ) (κf κr : Str → ℝ)
    (h : FlowOk o total P C kf kr κf κr) (hkf : ∀ k ∈ kf, 0 < k) (hkr : ∀ k ∈ kr, 0 < k)
    (hP : ∀ g ∈ o.net.gas, 0 < P g) (hC : ∀ g ∈ o.net.liq, 0 < C g) (hs : ∀ s ∈ o.net.sites, 0 < total s) :
    (∃ e, Live o total P C kf kr e ∧ Standstill o (kf, kr) e) ↔ ConstantsFitGases o.net P C kf kr := by
  constructor
  · rintro ⟨e, he, hse⟩
    exact fit_of_equilibrium h he hse
  · intro hw
    obtain ⟨z, hz, hb⟩ := activities_of_fit h hkf hkr hP hC hw
    exact C96_exists_partial o total P C kf kr κf κr h hkf hkr hs z hz hb

/-- **C128** For constants that fit energies: exactly if the gases and liquids are in equilibrium with each other. Constants from
energies by transition state theory are such (C85), and by collision theory below the limit, with the entropy terms in the energies
(C127). Missing: as above. -/
theorem C128_gases_partial (o : MFOwner ℝ) (total P C : Str → ℝ) (kf kr : List ℝ) (κf κr : Str → ℝ)
    (h : FlowOk o total P C kf kr κf κr) (hp : ∀ states ∈ o.net.rxns, PlainSites states)
    (hP : ∀ g ∈ o.net.gas, 0 < P g) (hC : ∀ g ∈ o.net.liq, 0 < C g) (hs : ∀ s ∈ o.net.sites, 0 < total s)
    (G : Str → ℝ) (kT : ℝ) (hkT : 0 < kT) (hfit : FitConstants o.rxns kT G kf kr) :
    (∃ e, Live o total P C kf kr e ∧ Standstill o (kf, kr) e) ↔ GasesInEquilibrium o.net kT G P C := by
  obtain ⟨h1, h2⟩ := fit_pos h.ready.parse hfit
  rw [C128_constants_partial o total P C kf kr κf κr h h1 h2 hP hC hs, fitGases_iff h hp hP hC hkT hfit]

/-- **C128** And then, if the network is not blocked, every physical beginning has exactly one equilibrium with its conserved amounts, and
every solution from it tends to this equilibrium. Missing: as above, and networks in which species can be missing for good. -/
theorem C128_reached_partial (o : MFOwner ℝ) (total P C : Str → ℝ) (kf kr : List ℝ) (κf κr : Str → ℝ)
    (h : FlowOk o total P C kf kr κf κr) (hkf : ∀ k ∈ kf, 0 < k) (hkr : ∀ k ∈ kr, 0 < k)
    (hP : ∀ g ∈ o.net.gas, 0 < P g) (hC : ∀ g ∈ o.net.liq, 0 < C g) (hs : ∀ s ∈ o.net.sites, 0 < total s) (hu : Unblocked o.net)
    (hw : ConstantsFitGases o.net P C kf kr) (v0 : Str → ℝ) (h0 : ∀ x ∈ o.net.siteCols, 0 ≤ coverage o.net total v0 x) :
    ∃ e, Live o total P C kf kr e ∧ Standstill o (kf, kr) e ∧ SameAmounts o.net (coverage o.net total v0) (coverage o.net total e) ∧
      (∀ u, Live o total P C kf kr u → Standstill o (kf, kr) u → SameAmounts o.net (coverage o.net total v0) (coverage o.net total u) →
        ∀ a ∈ o.net.ads, u a = e a) ∧
      ∀ v : ℝ → Str → ℝ, (∀ T, Follows o (kf, kr) T v) → (∀ a ∈ o.net.ads, v 0 a = v0 a) →
        ∀ a ∈ o.net.ads, Filter.Tendsto (fun t => v t a) Filter.atTop (𝓝 (e a)) := by
  obtain ⟨e0, he0, hse0⟩ := (C128_constants_partial o total P C kf kr κf κr h hkf hkr hP hC hs).mpr hw
  have hph := live_physical h he0
  obtain ⟨v, hv0, hv⟩ := C93_exists_partial o total P C kf kr κf κr h v0 ⟨hph.kf, hph.kr, hph.gas, hph.liq, h0⟩
  have hcov : ∀ v1 : Str → ℝ, (∀ a ∈ o.net.ads, v1 a = v0 a) → coverage o.net total v1 = coverage o.net total v0 := by
    intro v1 hv1
    funext x
    unfold coverage
    split
    · exact hv1 x ‹_›
    · congr 2
      apply List.map_congr_left
      intro a ha
      exact hv1 a (List.mem_filter.mp ha).1
  have h1 := C124_fills_partial o total P C kf kr κf κr h hkf hkr hP hC hs hu 1 v (hv 1) (by rw [hcov _ hv0]; exact h0) 1 ⟨one_pos, le_rfl⟩
  have hsh : ∀ T, Follows o (kf, kr) T (fun t => v (1 + t)) := fun T => by
    have := follows_from (hv (1 + T)) zero_le_one
    rwa [add_sub_cancel_left] at this
  obtain ⟨e, p1, p2, p3⟩ := rest_state h e0 he0 hse0 (fun t => v (1 + t)) hsh
    ⟨hkf, hkr, by rw [add_zero]; exact allPositive_cover hP hC h1⟩
  have hpe := C123_present_partial o total P C kf kr κf κr h hkf hkr hP hC hs hu e p1 o.net.ads.length (by
    rw [h.derivs]
    congr 1
    rw [← List.map_const']
    apply List.map_congr_left
    intro a ha
    exact standstill_flow h p2 a)
  have hle : Live o total P C kf kr e := ⟨hkf, hkr, allPositive_cover hP hC hpe⟩
  have hsame : SameAmounts o.net (coverage o.net total v0) (coverage o.net total e) := by
    intro w hw'
    rw [← p3 w hw', ← hcov _ hv0, add_zero]
    exact (amount_kept h (hv 1) hw' 1 ⟨zero_le_one, le_rfl⟩).symm
  refine ⟨e, hle, p2, hsame, ?_, ?_⟩
  · intro u hlu hsu hus
    refine C96_unique_partial o total P C kf kr κf κr h e u hle hlu p2 hsu ?_
    intro w hw'
    rw [← hus w hw', hsame w hw']
  · intro v1 hv1 hv10
    exact C124_converges_partial o total P C kf kr κf κr h e hle p2 hs hu v1 hv1 (by rw [hcov _ hv10]; exact h0)
      (by rw [hcov _ hv10]; exact hsame)

/-- **C128** At every physical steady state of a network that is not blocked, with constants that fit energies: no gas or liquid is turned
over exactly if every reaction stands still, exactly if the gases and liquids are in equilibrium with each other. Missing: as above. -/
theorem C128_turnover_partial (o : MFOwner ℝ) (total P C : Str → ℝ) (kf kr : List ℝ) (κf κr : Str → ℝ)
    (h : FlowOk o total P C kf kr κf κr) (hp : ∀ states ∈ o.net.rxns, PlainSites states)
    (hP : ∀ g ∈ o.net.gas, 0 < P g) (hC : ∀ g ∈ o.net.liq, 0 < C g) (hs : ∀ s ∈ o.net.sites, 0 < total s) (hu : Unblocked o.net)
    (G : Str → ℝ) (kT : ℝ) (hkT : 0 < kT) (hfit : FitConstants o.rxns kT G kf kr) (v : Str → ℝ)
    (hv : ∀ x ∈ o.net.siteCols, 0 ≤ coverage o.net total v x) (m : Nat)
    (hst : steadyStateFunction o (kf, kr) (o.net.ads.map v) = .ok (List.replicate m 0)) :
    (getTof o (kf, kr) (o.net.ads.map v) = .ok ((o.net.gas ++ o.net.liq).map fun _ => 0) ↔ GasesInEquilibrium o.net kT G P C) ∧
      (Standstill o (kf, kr) v ↔ GasesInEquilibrium o.net kT G P C) := by
  obtain ⟨hkf, hkr⟩ := fit_pos h.ready.parse hfit
  have hl : Live o total P C kf kr v := ⟨hkf, hkr, allPositive_cover hP hC
    (C123_present_partial o total P C kf kr κf κr h hkf hkr hP hC hs hu v hv m hst)⟩
  have hiff := C128_gases_partial o total P C kf kr κf κr h hp hP hC hs G kT hkT hfit
  have hback : GasesInEquilibrium o.net kT G P C → Standstill o (kf, kr) v ∧
      getTof o (kf, kr) (o.net.ads.map v) = .ok ((o.net.gas ++ o.net.liq).map fun _ => 0) := by
    intro hg
    obtain ⟨e, he, hse⟩ := hiff.mpr hg
    exact C96_no_turnover_partial o total P C kf kr κf κr h e v he hl hse m hst
  refine ⟨⟨fun ht => ?_, fun hg => (hback hg).2⟩, ⟨fun hsv => hiff.mp ⟨v, hl, hsv⟩, fun hg => (hback hg).1⟩⟩
  obtain ⟨net, tofs, e1, e2, hF⟩ := steady_fit o total P C h.ready h.clean hp v hl.act G kT hkT kf kr hfit h.one h.nsite m hst
  rw [ht] at e2
  have e2 := Except.ok.inj e2
  dsimp only at hF
  have hz : (List.zipWith (fun g t => t * potential kT G (activity o.net P C (coverage o.net total v)) g) (o.net.gas ++ o.net.liq) tofs).sum = 0 := by
    rw [← e2]
    apply List.sum_eq_zero
    intro x hx
    obtain ⟨i, hi, rfl⟩ := List.mem_iff_getElem.mp hx
    simp
  have hnet := hF.2.mp hz
  refine hiff.mp ⟨v, hl, ?_⟩
  obtain ⟨rfs, rrs, f1, f2, f3, -⟩ := direction_fit o total P C h.ready h.clean hp v hl.act G kT hkT kf kr hfit
  refine ⟨rfs, rrs, f1, ?_⟩
  have hn : getNetRates o (kf, kr) (o.net.ads.map v) = .ok (List.zipWith (· - ·) rfs rrs) := by
    unfold getNetRates
    rw [f1]
    rfl
  rw [hn] at e1
  have e1 := Except.ok.inj e1
  apply List.ext_getElem (by omega)
  intro i i1 i2
  have hm : rfs[i] - rrs[i] ∈ net := by
    rw [← e1, List.mem_iff_getElem]
    exact ⟨i, by simp; omega, by simp⟩
  exact sub_eq_zero.mp (hnet _ hm)

/-- **C128** So with constants from absolute energies by transition state theory. Missing: as above. -/
theorem C128_transition_partial (o : MFOwner ℝ) (total P C : Str → ℝ) (kf kr : List ℝ) (κf κr : Str → ℝ)
    (h : FlowOk o total P C kf kr κf κr) (hp : ∀ states ∈ o.net.rxns, PlainSites states)
    (hP : ∀ g ∈ o.net.gas, 0 < P g) (hC : ∀ g ∈ o.net.liq, 0 < C g) (hs : ∀ s ∈ o.net.sites, 0 < total s) (hu : Unblocked o.net)
    (E : Dict Str ℝ) (G : Str → ℝ) (hG : Extends G E) (ro : RateOwner) (hro : ro.rxns = o.rxns) (hT : 0 < ro.T)
    (r : Rel ℝ) (hr : relativeFromAbsolute (some E) o.rxns = .ok r)
    (hk : rateConstants ro .TST ⟨some r.gaf, some r.gar, some r.dg⟩ = .ok (kf, kr)) (v : Str → ℝ)
    (hv : ∀ x ∈ o.net.siteCols, 0 ≤ coverage o.net total v x) (m : Nat)
    (hst : steadyStateFunction o (kf, kr) (o.net.ads.map v) = .ok (List.replicate m 0)) :
    getTof o (kf, kr) (o.net.ads.map v) = .ok ((o.net.gas ++ o.net.liq).map fun _ => 0) ↔
      GasesInEquilibrium o.net (kBeV * ro.T) G P C := by
  obtain ⟨kf1, kr1, hk1, hfit⟩ := fit_TST E G hG ro hro hT r hr
  rw [hk] at hk1
  cases hk1
  exact (C128_turnover_partial o total P C kf kr κf κr h hp hP hC hs hu G _ (mul_pos kBeV_pos hT) hfit v hv m hst).1

/-- **C128** And by collision theory below the limit, the entropy terms in the energies of the gases. Missing: as above and as in C127. -/
theorem C128_collision_partial (o : MFOwner ℝ) (total P C : Str → ℝ) (ro : RateOwner) (G : Str → ℝ) (kf kr : List ℝ)
    (hm : CollisionModel o total P C ro G kf kr)
    (hone : ∀ a ∈ o.net.ads, ∀ states ∈ o.net.rxns, OneSided a states)
    (hn : ∀ a ∈ o.net.ads, ∀ f, chemFormula a = .ok f → f.nsite = 1)
    (hP : ∀ g ∈ o.net.gas, 0 < P g) (hC : ∀ g ∈ o.net.liq, 0 < C g) (hs : ∀ s ∈ o.net.sites, 0 < total s) (hu : Unblocked o.net)
    (v : Str → ℝ) (hv : ∀ x ∈ o.net.siteCols, 0 ≤ coverage o.net total v x) (m : Nat)
    (hst : steadyStateFunction o (kf, kr) (o.net.ads.map v) = .ok (List.replicate m 0)) :
    getTof o (kf, kr) (o.net.ads.map v) = .ok ((o.net.gas ++ o.net.liq).map fun _ => 0) ↔
      GasesInEquilibrium o.net (kBeV * ro.T) (gasEnergy ro.T G) P C := by
  obtain ⟨κf, κr, k1, k2⟩ := hm.fit.own
  exact (C128_turnover_partial o total P C kf kr κf κr ⟨hm.ready, hm.clean, k1, k2, hone, hn⟩ hm.plain hP hC hs hu _ _
    (mul_pos kBeV_pos hm.warm) hm.fit v hv m hst).1

/-- **C128** (refuted) With constants that do not come from energies, nothing may be turned over although the reactions do not stand
still: CO goes round a loop. -/
theorem C128_loop_refuted :
    let o : MFOwner ℚ := ⟨exLoopRxns, exLoopNet, [(str! "*_s", 1)], [(str! "CO_g", 1)], []⟩
    let k : List ℚ × List ℚ := ([2, 1], [1, 1])
    parseNetwork exLoopRxns = .ok exLoopNet ∧ steadyStateFunction o k [3 / 5] = .ok [0] ∧ getTof o k [3 / 5] = .ok [0] ∧
      getRates o k [3 / 5] = .ok ([4 / 5, 3 / 5], [3 / 5, 2 / 5]) := by
  decide +kernel

/-! ### an example: CO oxidation -/

/-- All constants and pressures one: the constants fit the gases, so there is an equilibrium. -/
example : ∃ e, Live exDriveMF (fun _ => 1) (fun _ => 1) (fun _ => 1) [1, 1, 1] [1, 1, 1] e ∧ Standstill exDriveMF ([1, 1, 1], [1, 1, 1]) e := by
  refine (C128_constants_partial exDriveMF _ _ _ _ _ _ _ exEqui_ok (by simp) (by simp) (fun _ _ => one_pos) (fun _ _ => one_pos)
    fun _ _ => one_pos).mpr ?_
  intro w hw _
  have e3 : w.length = 3 := hw
  match w, e3 with
  | [a, b, c], _ => simp [logProduct, gasFreeEnergy]

/-- And from the empty surface the coverages tend to it. -/
example : ∃ e, Standstill exDriveMF ([1, 1, 1], [1, 1, 1]) e ∧ ∀ v : ℝ → Str → ℝ, (∀ T, Follows exDriveMF ([1, 1, 1], [1, 1, 1]) T v) →
    (∀ a ∈ exDriveMF.net.ads, v 0 a = 0) → ∀ a ∈ exDriveMF.net.ads, Filter.Tendsto (fun t => v t a) Filter.atTop (𝓝 (e a)) := by
  obtain ⟨e, -, h2, -, -, h5⟩ := C128_reached_partial exDriveMF _ _ _ _ _ _ _ exEqui_ok (by simp) (by simp) (fun _ _ => one_pos) (fun _ _ => one_pos)
    (fun _ _ => one_pos) exUnblocked (by
      intro w hw _
      have e3 : w.length = 3 := hw
      match w, e3 with
      | [a, b, c], _ => simp [logProduct, gasFreeEnergy]) (fun _ => 0) (by
      rw [exEqui_cols]
      simp only [List.mem_cons, List.not_mem_nil, or_false, forall_eq_or_imp, forall_eq]
      rw [exEqui_star, (exEqui_ads _).1, (exEqui_ads _).2]
      norm_num)
  exact ⟨e, h2, h5⟩

/-- With the energies of CO oxidation at 450 K and pressures one the gases are not in equilibrium: there is no equilibrium, there are
steady states, and in each of them something is turned over. -/
example : ∃ (k : List ℝ × List ℝ), (¬ ∃ e, Live exDriveMF (fun _ => 1) (fun _ => 1) (fun _ => 1) k.1 k.2 e ∧ Standstill exDriveMF k e) ∧
    (∃ v, (∀ x ∈ exDriveMF.net.siteCols, 0 < coverage exDriveMF.net (fun _ => 1) v x) ∧
      steadyStateFunction exDriveMF k (exDriveMF.net.ads.map v) = .ok (List.replicate exDriveMF.net.ads.length 0)) ∧
    ∀ v, (∀ x ∈ exDriveMF.net.siteCols, 0 < coverage exDriveMF.net (fun _ => 1) v x) →
      steadyStateFunction exDriveMF k (exDriveMF.net.ads.map v) = .ok (List.replicate exDriveMF.net.ads.length 0) →
      getTof exDriveMF k (exDriveMF.net.ads.map v) ≠ .ok [0, 0, 0] := by
  obtain ⟨r, hr⟩ := (C12_complete_tables exDriveE exDriveMF.rxns exDriveMF.net exNet_ok).1 (by
    have hk : keys exDriveE = [str! "CO_g", str! "O2_g", str! "CO2_g", str! "*_s", str! "CO_s", str! "O_s",
      str! "CO-O_2s", str! "O-O_2s"] := rfl
    rw [hk]
    decide)
  obtain ⟨G, hG⟩ := exists_extends exDriveE
  have hp : ∀ st ∈ exDriveMF.net.rxns, PlainSites st :=
    fun st hst => plainSites_of ((by decide : ∀ st ∈ exNet.rxns, plainSitesB st = true) st hst)
  let ro : RateOwner := ⟨exRxns, 450, [], 0, 0, false⟩
  have hT : 0 < ro.T := by norm_num [ro]
  obtain ⟨kf, kr, hk, hfit⟩ := fit_TST (rxns := exRxns) exDriveE G hG ro rfl hT r hr
  obtain ⟨κf, κr, k1, k2⟩ := hfit.own
  have hok : FlowOk exDriveMF (fun _ => 1) (fun _ => 1) (fun _ => 1) kf kr κf κr :=
    ⟨exDrive_ready, exFlow_clean, k1, k2, exFlow_one, exFlow_nsite⟩
  have hng : ¬ GasesInEquilibrium exDriveMF.net (kBeV * ro.T) G (fun _ => 1) (fun _ => 1) := by
    intro hg
    have := hg [2, 1, 2] rfl exDrive_closed
    have e1 : exDriveMF.net.gas = [str! "CO2_g", str! "CO_g", str! "O2_g"] := by decide
    have e2 : exDriveMF.net.liq = [] := by decide
    have e3 : ∀ x w, production (K := ℝ) exDriveMF.net w x = (List.zipWith (fun (p : Int) r => (p : ℝ) * r) (exNet.rxns.map (produced x)) w).sum := by
      intro x w
      unfold production
      rw [List.zipWith_map_left]
      rfl
    have g1 : G (str! "CO2_g") = -3 := hG _ _ rfl
    have g2 : G (str! "CO_g") = 0 := hG _ _ rfl
    have g3 : G (str! "O2_g") = 0 := hG _ _ rfl
    unfold gasFreeEnergy at this
    rw [e1, e2] at this
    simp only [List.map_cons, List.map_nil, List.sum_cons, List.sum_nil, e3, g1, g2, g3, Real.log_one,
      show exNet.rxns.map (produced (str! "CO2_g")) = [0, 0, 1] by decide] at this
    norm_num at this
  refine ⟨(kf, kr), ?_, ?_, ?_⟩
  · exact fun he => hng ((C128_gases_partial exDriveMF _ _ _ kf kr κf κr hok hp (fun _ _ => one_pos) (fun _ _ => one_pos)
      (fun _ _ => one_pos) G _ (mul_pos kBeV_pos hT) hfit).mp he)
  · exact C123_exists_partial exDriveMF _ _ _ exDrive_ready exFlow_clean exFlow_one exFlow_nsite ro rfl hT .TST _ (kf, kr) hk
      (fun _ _ => one_pos) (fun _ _ => one_pos) (fun _ _ => one_pos) exUnblocked
  · intro v hv hst ht
    exact hng ((C128_transition_partial exDriveMF _ _ _ kf kr κf κr hok hp (fun _ _ => one_pos) (fun _ _ => one_pos)
      (fun _ _ => one_pos) exUnblocked exDriveE G hG ro rfl hT r hr hk v (fun x hx => (hv x hx).le) _ hst).mp (by
        rw [ht]
        rfl))

/-- Collision theory for the adsorption and desorption of carbon monoxide: with one gas only nothing is turned over at any steady state. -/
example : ∃ A kf kr G, CollisionModel exLoopMF (fun _ => 1) (fun _ => 1) (fun _ => 1) ⟨exLoopRxns, 450, [], A, 1 / 2, true⟩ G kf kr ∧
    ∀ v, (∀ x ∈ exLoopMF.net.siteCols, 0 ≤ coverage exLoopMF.net (fun _ => 1) v x) → ∀ m,
      steadyStateFunction exLoopMF (kf, kr) (exLoopMF.net.ads.map v) = .ok (List.replicate m 0) →
      getTof exLoopMF (kf, kr) (exLoopMF.net.ads.map v) = .ok [0] := by
  obtain ⟨G, hG⟩ := exists_extends [(str! "CO_g", (0 : ℝ)), (str! "*_s", 0), (str! "CO_s", -2)]
  obtain ⟨A, kf, kr, hm⟩ := exLoop_collision G hG
  have hu : Unblocked exLoopMF.net := C123_adsorption exLoopRxns exLoopNet (by decide) fun a ha => by
    have : ∀ a ∈ exLoopNet.ads, (str! "*_s") ∈ exLoopNet.sites ∧ OnSite a (str! "*_s") ∧ directB exLoopNet a (str! "*_s") = true := by decide
    exact ⟨_, (this a ha).1, (this a ha).2.1, direct_of (this a ha).2.2⟩
  refine ⟨A, kf, kr, G, hm, fun v hv m hst => ?_⟩
  refine (C128_collision_partial _ _ _ _ _ _ _ _ hm exLoop_one exLoop_nsite (fun _ _ => one_pos) (fun _ _ => one_pos) (fun _ _ => one_pos)
    hu v hv m hst).mpr ?_
  intro w hw hcl
  have e3 : ∀ x w, production (K := ℝ) exLoopMF.net w x = (List.zipWith (fun (p : Int) r => (p : ℝ) * r) (exLoopNet.rxns.map (produced x)) w).sum := by
    intro x w
    unfold production
    rw [List.zipWith_map_left]
    rfl
  have e4 : w.length = 2 := hw
  match w, e4 with
  | [a, b], _ =>
    have h1 := hcl (str! "CO_s") (by decide)
    have h2 : production exLoopMF.net [a, b] (str! "CO_g") = 0 := by
      rw [e3] at h1 ⊢
      rw [show exLoopNet.rxns.map (produced (str! "CO_s")) = [1, -1] by decide] at h1
      rw [show exLoopNet.rxns.map (produced (str! "CO_g")) = [-1, 1] by decide]
      simp at h1 ⊢
      linarith
    unfold gasFreeEnergy
    rw [show exLoopMF.net.gas = [str! "CO_g"] by decide, show exLoopMF.net.liq = [] by decide]
    simp [h2]

end Verif
