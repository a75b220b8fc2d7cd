import Verif.Props.Absent
import Verif.Lemmas.Flow
import Mathlib.MeasureTheory.Integral.IntervalIntegral.FundThmCalculus
/-
Property C93: the differential equations of the coverages (`solve_ode`) have exactly one solution
from every physical beginning, for all times, and it stays physical; and free energy decreases along
it.
-/
namespace Verif
open Dict
open Set (Icc Ioo)
set_option linter.unusedSectionVars false

/-! ### specification -/

/-- Coverages as functions of time that follow the derivatives computed by `steady_state_function`
(the function `solve_ode` hands to the integrator). -/
structure Follows (o : MFOwner ℝ) (k : List ℝ × List ℝ) (T : ℝ) (v : ℝ → Str → ℝ) : Prop where
  cont : ∀ a ∈ o.net.ads, ContinuousOn (fun t => v t a) (Icc 0 T)
  deriv : ∀ t ∈ Ioo 0 T, ∃ derivs, steadyStateFunction o k (o.net.ads.map (v t)) = .ok derivs ∧
    ∀ p ∈ o.net.ads.zip derivs, HasDerivAt (fun τ => v τ p.1) p.2 t

/-! ### helpers -/

/-- Rate of change of a name at given activities of the surface species. -/
noncomputable def flow (n : Network) (rxns : List Str) (P C κf κr θ : Str → ℝ) (x : Str) : ℝ :=
  (List.zipWith (fun states r => (produced x states : ℝ) *
    (rateOf P C θ (κf r) states.head? - rateOf P C θ (κr r) states.getLast?)) n.rxns rxns).sum

theorem production_flow {o : MFOwner ℝ} {total P C : Str → ℝ} (h : Ready o total P C)
    (hc : ∀ states ∈ o.net.rxns, RateClean states) (v : Str → ℝ) {kf kr : List ℝ} {κf κr : Str → ℝ}
    (hkf : KOk o.rxns kf κf) (hkr : KOk o.rxns kr κr) {net : List ℝ}
    (hn : getNetRates o (kf, kr) (o.net.ads.map v) = .ok net) (x : Str) :
    production o.net net x = flow o.net o.rxns P C κf κr (coverage o.net total v) x := by
  obtain ⟨rfs, rrs, h1, h2, h3, h4⟩ := getRates_ok h hc v kf kr κf κr hkf hkr
  have hl := length_rxns h.parse
  have : net = List.zipWith (· - ·) rfs rrs := by
    unfold getNetRates at hn; rw [h1] at hn; exact (Except.ok.inj hn).symm
  subst this
  unfold production flow
  congr 1
  apply List.ext_getElem
  · simp [h2, h3]
  · intro i hi1 hi2
    simp only [List.length_zipWith] at hi1 hi2
    obtain ⟨st, is, fs, g1, g2, -, g4, g5, -, -⟩ := states_ok h.parse (i := i) (by omega)
    obtain ⟨ra, rb⟩ := h4 i (by omega) st is fs g1 g4 g5
    rw [List.getElem?_eq_getElem (by omega)] at g2 ra rb
    simp only [List.getElem_zipWith, Option.some.inj g2, Option.some.inj ra, Option.some.inj rb, g4, g5, rateOf]

theorem stateActivity_congr {P C θ θ' : Str → ℝ} {fs : List Formula}
    (h : ∀ f ∈ fs, specAct P C θ f = specAct P C θ' f) : stateActivity P C θ fs = stateActivity P C θ' fs := by
  unfold stateActivity
  congr 1
  apply List.map_congr_left
  intro f hf
  rw [h f hf]

/-- Only the names of the surface columns matter. -/
theorem flow_congr {rxns : List Str} {n : Network} (h : parseNetwork rxns = .ok n)
    (hc : ∀ states ∈ n.rxns, RateClean states) (P C κf κr : Str → ℝ) {θ θ' : Str → ℝ}
    (he : ∀ x ∈ n.siteCols, θ x = θ' x) (x : Str) :
    flow n rxns P C κf κr θ x = flow n rxns P C κf κr θ' x := by
  have hl := length_rxns h
  unfold flow
  congr 1
  apply List.ext_getElem
  · simp
  · intro i hi1 hi2
    simp only [List.length_zipWith] at hi1 hi2
    obtain ⟨st, is, fs, g1, g2, -, g4, g5, o1, o2⟩ := states_ok h (i := i) (by omega)
    have hcl := hc st (List.mem_of_getElem? g2)
    rw [List.getElem?_eq_getElem (by omega)] at g2
    have key : ∀ gs, (st.head? = some gs ∨ st.getLast? = some gs) → (∀ f ∈ gs, OccursIn rxns f) →
        stateActivity P C θ gs = stateActivity P C θ' gs := by
      intro gs hgs hocc
      apply stateActivity_congr
      intro f hf
      have k1 := (hcl.1.1 gs hgs f hf).1
      have k2 := hcl.1.2 gs hgs f hf
      unfold specAct
      cases hk : specKind f.species f.site with
      | gas => rfl
      | liquid => rfl
      | ts => exact absurd hk k1
      | ads => exact he _ ((listed_iff h (hocc f hf)).2.1 hk)
      | empty =>
        have hne : f.site ≠ str! "g" ∧ f.site ≠ str! "l" := by
          constructor <;> intro e <;> simp [specKind, e] at hk
        apply he
        unfold Network.siteCols
        rw [List.mem_append, C08_site_names _ _ h]
        exact Or.inl ⟨f, hocc f hf, hne.1, hne.2, k2 hk⟩
    simp only [List.getElem_zipWith, Option.some.inj g2, g4, g5, rateOf, key is (Or.inl g4) o1, key fs (Or.inr g5) o2]

/-- Totals that make given numbers the coverages. -/
def totalsOf (n : Network) (θ : Str → ℝ) (s : Str) : ℝ := θ s + ((n.ads.filter fun a => OnSite a s).map θ).sum

theorem get?_map_self {l : List Str} {f : Str → ℝ} {s : Str} (h : s ∈ l) : get? (l.map fun s => (s, f s)) s = some (f s) := by
  induction l with
  | nil => simp at h
  | cons x l ih =>
    rw [List.map_cons, get?]
    by_cases e : x = s
    · simp [e]
    · rw [if_neg (by simpa using e)]
      exact ih (by
        rcases List.mem_cons.mp h with e' | e'
        · exact absurd e'.symm e
        · exact e')

/-- The model with these totals. -/
noncomputable def withTotals (o : MFOwner ℝ) (θ : Str → ℝ) : MFOwner ℝ :=
  { o with totals := o.net.sites.map fun s => (s, totalsOf o.net θ s) }

theorem withTotals_ready {o : MFOwner ℝ} {total P C : Str → ℝ} (h : Ready o total P C) (θ : Str → ℝ) :
    Ready (withTotals o θ) (totalsOf o.net θ) P C :=
  ⟨h.parse, fun _ hs => get?_map_self hs, h.pressures, h.concs⟩

theorem withTotals_coverage (o : MFOwner ℝ) (θ : Str → ℝ) :
    ∀ x ∈ o.net.siteCols, coverage o.net (totalsOf o.net θ) θ x = θ x := by
  intro x hx
  unfold coverage totalsOf
  split
  · rfl
  · ring

theorem flow_totals {o : MFOwner ℝ} {total P C : Str → ℝ} (h : Ready o total P C)
    (hc : ∀ states ∈ o.net.rxns, RateClean states) {kf kr : List ℝ} {κf κr : Str → ℝ}
    (hkf : KOk o.rxns kf κf) (hkr : KOk o.rxns kr κr)
    (hone : ∀ a ∈ o.net.ads, ∀ states ∈ o.net.rxns, OneSided a states)
    (hn : ∀ a ∈ o.net.ads, ∀ f, chemFormula a = .ok f → f.nsite = 1) (θ : Str → ℝ) :
    ∀ s ∈ o.net.sites, ((o.net.ads.filter fun a => OnSite a s).map (flow o.net o.rxns P C κf κr θ)).sum
      + flow o.net o.rxns P C κf κr θ s = 0 := by
  intro s hs
  have hr := withTotals_ready h θ
  obtain ⟨net, h1, h2, h3⟩ := C26_derivatives_partial (withTotals o θ) _ P C hr hc θ kf kr κf κr hkf hkr hone
  obtain ⟨net', derivs, e1, e4, e5⟩ := C27_sites_partial (withTotals o θ) _ P C hr hc θ kf kr κf κr hkf hkr hone hn
  rw [h1] at e1; cases e1
  rw [h3] at e4; cases e4
  have hfil : ∀ (s : Str) (l : List Str), (((l.zip (l.map (production o.net net))).filter fun x => OnSite x.1 s).map (·.2))
      = (l.filter fun a => OnSite a s).map (production o.net net) := by
    intro s l
    induction l with
    | nil => rfl
    | cons a l ih => by_cases ha : OnSite a s <;> simp [ha, ih]
  have e := e5 s hs
  have hfil' := hfil s o.net.ads
  rw [show (withTotals o θ).net = o.net from rfl, hfil'] at e
  have hpf : ∀ x, production o.net net x = flow o.net o.rxns P C κf κr θ x := by
    intro x
    have := production_flow hr hc θ hkf hkr h1 x
    refine this.trans ?_
    exact flow_congr h.parse hc P C κf κr (withTotals_coverage o θ) x
  rw [hpf] at e
  rw [← e]
  congr 2
  apply List.map_congr_left
  intro a _
  exact (hpf a).symm

theorem flow_inward {o : MFOwner ℝ} {total P C : Str → ℝ} (h : Ready o total P C)
    (hc : ∀ states ∈ o.net.rxns, RateClean states) {kf kr : List ℝ} {κf κr : Str → ℝ}
    (hkf : KOk o.rxns kf κf) (hkr : KOk o.rxns kr κr) (hf0 : ∀ k ∈ kf, 0 ≤ k) (hr0 : ∀ k ∈ kr, 0 ≤ k)
    (hP : ∀ g ∈ o.net.gas, 0 ≤ P g) (hC : ∀ g ∈ o.net.liq, 0 ≤ C g) (θ : Str → ℝ)
    (hθ : ∀ x ∈ o.net.siteCols, 0 ≤ θ x) (x : Str) (hx : x ∈ o.net.siteCols) (h0 : θ x = 0) :
    0 ≤ flow o.net o.rxns P C κf κr θ x := by
  have hr := withTotals_ready h θ
  have hcov := withTotals_coverage o θ
  obtain ⟨rfs, rrs, net, -, h2, h3, -, -, -, h4⟩ := C86_absent_partial (withTotals o θ) _ P C hr hc θ kf kr κf κr hkf hkr
    ⟨hf0, hr0, hP, hC, fun y hy => by
      rw [show (withTotals o θ).net = o.net from rfl, hcov y hy]; exact hθ y hy⟩
  have := h4 x (Or.inr (Or.inr ⟨hx, by
    rw [show (withTotals o θ).net = o.net from rfl, hcov x hx]; exact h0⟩))
  rw [← flow_congr h.parse hc P C κf κr hcov x]
  exact this.trans_eq (production_flow hr hc θ hkf hkr h2 x)

/-- A vector indexed by the surface columns as numbers for all names. -/
noncomputable def extend (cols : List Str) (y : {x // x ∈ cols} → ℝ) (x : Str) : ℝ := if h : x ∈ cols then y ⟨x, h⟩ else 0

/-- The equations for the surface columns. -/
noncomputable def field (o : MFOwner ℝ) (P C κf κr : Str → ℝ) (y : {x // x ∈ o.net.siteCols} → ℝ) : {x // x ∈ o.net.siteCols} → ℝ :=
  fun x => flow o.net o.rxns P C κf κr (extend o.net.siteCols y) x.1

theorem extend_contDiff (cols : List Str) (x : Str) : ContDiff ℝ 1 fun y => extend cols y x := by
  unfold extend
  split
  · exact contDiff_apply ℝ ℝ _
  · exact contDiff_const

theorem flow_contDiff (o : MFOwner ℝ) (P C κf κr : Str → ℝ) (x : Str) :
    ContDiff ℝ 1 fun y => flow o.net o.rxns P C κf κr (extend o.net.siteCols y) x := by
  have hact : ∀ fs, ContDiff ℝ 1 fun y => stateActivity P C (extend o.net.siteCols y) fs := by
    intro fs
    unfold stateActivity
    induction fs with
    | nil => simpa using contDiff_const
    | cons f fs ih =>
      simp only [List.map_cons, List.prod_cons]
      refine ContDiff.mul (ContDiff.pow ?_ _) ih
      unfold specAct
      cases specKind f.species f.site with
      | gas => exact contDiff_const
      | liquid => exact contDiff_const
      | ts => exact extend_contDiff _ _
      | ads => exact extend_contDiff _ _
      | empty => exact extend_contDiff _ _
  have hrate : ∀ k st, ContDiff ℝ 1 fun y => rateOf P C (extend o.net.siteCols y) k st := by
    intro k st
    unfold rateOf
    cases st with
    | none => exact contDiff_const
    | some fs => exact contDiff_const.mul (hact fs)
  unfold flow
  generalize o.net.rxns = rs
  generalize o.rxns = ts
  induction rs generalizing ts with
  | nil => simpa using contDiff_const
  | cons st rs ih =>
    cases ts with
    | nil => simpa using contDiff_const
    | cons t ts =>
      simp only [List.zipWith_cons_cons, List.sum_cons]
      exact (contDiff_const.mul ((hrate _ _).sub (hrate _ _))).add (ih ts)

theorem field_contDiff (o : MFOwner ℝ) (P C κf κr : Str → ℝ) : ContDiff ℝ 1 (field o P C κf κr) := by
  rw [contDiff_pi]
  intro x
  exact flow_contDiff o P C κf κr x.1

theorem sum_cols {cols : List Str} (hn : cols.Nodup) (f : Str → ℝ) : ∑ i : {x // x ∈ cols}, f i.1 = (cols.map f).sum := by
  rw [← List.sum_toFinset f hn]
  rw [← Finset.sum_coe_sort cols.toFinset f]
  apply Fintype.sum_equiv (Equiv.subtypeEquivRight fun x => by simp)
  intro x
  rfl

theorem hasDerivAt_listSum {l : List Str} {v : ℝ → Str → ℝ} {d : Str → ℝ} {t : ℝ}
    (h : ∀ a ∈ l, HasDerivAt (fun τ => v τ a) (d a) t) : HasDerivAt (fun τ => (l.map (v τ)).sum) (l.map d).sum t := by
  induction l with
  | nil => simpa using hasDerivAt_const t (0 : ℝ)
  | cons a l ih =>
    simp only [List.map_cons, List.sum_cons]
    exact (h a (by simp)).fun_add (ih fun b hb => h b (by simp [hb]))

theorem continuousOn_listSum {l : List Str} {v : ℝ → Str → ℝ} {S : Set ℝ}
    (h : ∀ a ∈ l, ContinuousOn (fun τ => v τ a) S) : ContinuousOn (fun τ => (l.map (v τ)).sum) S := by
  induction l with
  | nil => simpa using continuousOn_const
  | cons a l ih =>
    simp only [List.map_cons, List.sum_cons]
    exact (h a (by simp)).add (ih fun b hb => h b (by simp [hb]))

/-- What the theorems of this file ask of a model. -/
structure FlowOk (o : MFOwner ℝ) (total P C : Str → ℝ) (kf kr : List ℝ) (κf κr : Str → ℝ) : Prop where
  ready : Ready o total P C
  clean : ∀ states ∈ o.net.rxns, RateClean states
  kf : KOk o.rxns kf κf
  kr : KOk o.rxns kr κr
  one : ∀ a ∈ o.net.ads, ∀ states ∈ o.net.rxns, OneSided a states
  nsite : ∀ a ∈ o.net.ads, ∀ f, chemFormula a = .ok f → f.nsite = 1

theorem FlowOk.derivs {o : MFOwner ℝ} {total P C : Str → ℝ} {kf kr : List ℝ} {κf κr : Str → ℝ}
    (h : FlowOk o total P C kf kr κf κr) (v : Str → ℝ) :
    steadyStateFunction o (kf, kr) (o.net.ads.map v)
      = .ok (o.net.ads.map (flow o.net o.rxns P C κf κr (coverage o.net total v))) := by
  obtain ⟨net, h1, h2, h3⟩ := C26_derivatives_partial o total P C h.ready h.clean v kf kr κf κr h.kf h.kr h.one
  rw [h3]
  congr 1
  apply List.map_congr_left
  intro a _
  exact production_flow h.ready h.clean v h.kf h.kr h1 a

theorem zip_map_mem {l : List Str} {f : Str → ℝ} {a : Str} (h : a ∈ l) : (a, f a) ∈ l.zip (l.map f) := by
  induction l with
  | nil => simp at h
  | cons x l ih =>
    rw [List.map_cons, List.zip_cons_cons, List.mem_cons]
    rcases List.mem_cons.mp h with e | e
    · subst e; exact Or.inl rfl
    · exact Or.inr (ih e)

theorem extend_of {cols : List Str} {θ : Str → ℝ} : ∀ x ∈ cols, extend cols (fun i => θ i.1) x = θ x := by
  intro x hx
  unfold extend
  rw [dif_pos hx]

/-- Coverages that follow the code solve the equations for the surface columns. -/
theorem Follows.solves {o : MFOwner ℝ} {total P C : Str → ℝ} {kf kr : List ℝ} {κf κr : Str → ℝ}
    (h : FlowOk o total P C kf kr κf κr) {T : ℝ} {v : ℝ → Str → ℝ} (hv : Follows o (kf, kr) T v) :
    Flow.Solves (field o P C κf κr) T (fun t x => coverage o.net total (v t) x.1) := by
  have hder : ∀ t ∈ Ioo 0 T, ∀ a ∈ o.net.ads,
      HasDerivAt (fun τ => v τ a) (flow o.net o.rxns P C κf κr (coverage o.net total (v t)) a) t := by
    intro t ht a ha
    obtain ⟨derivs, h1, h2⟩ := hv.deriv t ht
    rw [h.derivs] at h1
    cases h1
    exact h2 _ (zip_map_mem ha)
  constructor
  · rintro ⟨x, hx⟩
    unfold coverage
    dsimp only
    split
    · exact hv.cont x ‹_›
    · apply continuousOn_const.sub
      apply continuousOn_listSum
      intro a ha
      exact hv.cont a (List.mem_filter.mp ha).1
  · rintro t ht ⟨x, hx⟩
    have hf : field o P C κf κr (fun i => coverage o.net total (v t) i.1) ⟨x, hx⟩
        = flow o.net o.rxns P C κf κr (coverage o.net total (v t)) x := by
      unfold field
      exact flow_congr h.ready.parse h.clean P C κf κr extend_of x
    rw [hf]
    dsimp only
    by_cases ha : x ∈ o.net.ads
    · have := hder t ht x ha
      unfold coverage at this ⊢
      simp only [if_pos ha] at this ⊢
      exact this
    · have hs : x ∈ o.net.sites := by
        unfold Network.siteCols at hx
        rcases List.mem_append.mp hx with e | e
        · exact e
        · exact absurd e ha
      have hz := flow_totals h.ready h.clean h.kf h.kr h.one h.nsite (coverage o.net total (v t)) x hs
      have h1 := (hasDerivAt_const t (total x)).fun_sub (hasDerivAt_listSum
        (l := o.net.ads.filter fun a => OnSite a x) (v := v) (d := flow o.net o.rxns P C κf κr (coverage o.net total (v t)))
        (fun a ha => hder t ht a (List.mem_filter.mp ha).1))
      have h2 : (fun τ => coverage o.net total (v τ) x)
          = fun τ => total x - ((o.net.ads.filter fun a => OnSite a x).map (v τ)).sum := by
        funext τ; unfold coverage; rw [if_neg ha]
      rw [h2]
      rw [show flow o.net o.rxns P C κf κr (coverage o.net total (v t)) x = _ from eq_sub_of_add_eq' hz]
      exact h1

/-- And conversely, if they begin with the totals of the model. -/
theorem follows_of_solves {o : MFOwner ℝ} {total P C : Str → ℝ} {kf kr : List ℝ} {κf κr : Str → ℝ}
    (h : FlowOk o total P C kf kr κf κr) {T : ℝ} {y : ℝ → {x // x ∈ o.net.siteCols} → ℝ}
    (hy : Flow.Solves (field o P C κf κr) T y) (v0 : Str → ℝ) (h0 : ∀ i, y 0 i = coverage o.net total v0 i.1) :
    Follows o (kf, kr) T (fun t => extend o.net.siteCols (y t)) := by
  have hads : ∀ a ∈ o.net.ads, a ∈ o.net.siteCols := fun a ha => by
    unfold Network.siteCols; exact List.mem_append_right _ ha
  have hsit : ∀ a ∈ o.net.sites, a ∈ o.net.siteCols := fun a ha => by
    unfold Network.siteCols; exact List.mem_append_left _ ha
  have hcont : ∀ x ∈ o.net.siteCols, ContinuousOn (fun t => extend o.net.siteCols (y t) x) (Icc 0 T) := by
    intro x hx
    unfold extend
    simp only [dif_pos hx]
    exact hy.cont ⟨x, hx⟩
  have hder : ∀ t ∈ Ioo 0 T, ∀ x ∈ o.net.siteCols, HasDerivAt (fun τ => extend o.net.siteCols (y τ) x)
      (flow o.net o.rxns P C κf κr (extend o.net.siteCols (y t)) x) t := by
    intro t ht x hx
    have := hy.deriv t ht ⟨x, hx⟩
    have e : (fun τ => extend o.net.siteCols (y τ) x) = fun τ => y τ ⟨x, hx⟩ := by
      funext τ; unfold extend; rw [dif_pos hx]
    rw [e]
    exact this
  have hinv : ∀ t ∈ Icc 0 T, ∀ x ∈ o.net.siteCols,
      coverage o.net total (extend o.net.siteCols (y t)) x = extend o.net.siteCols (y t) x := by
    intro t ht x hx
    unfold coverage
    split
    · rfl
    · rename_i ha
      have hs : x ∈ o.net.sites := by
        unfold Network.siteCols at hx
        rcases List.mem_append.mp hx with e | e
        · exact e
        · exact absurd e ha
      have hc := Flow.const (f := fun t => ((o.net.ads.filter fun a => OnSite a x).map (extend o.net.siteCols (y t))).sum
          + extend o.net.siteCols (y t) x) (T := T) ?_ ?_ t ht
      · have hb : ((o.net.ads.filter fun a => OnSite a x).map (extend o.net.siteCols (y 0))).sum
            + extend o.net.siteCols (y 0) x = total x := by
          have e1 : (o.net.ads.filter fun a => OnSite a x).map (extend o.net.siteCols (y 0))
              = (o.net.ads.filter fun a => OnSite a x).map v0 := by
            apply List.map_congr_left
            intro a haf
            have ham := (List.mem_filter.mp haf).1
            unfold extend
            rw [dif_pos (hads a ham), h0]
            unfold coverage
            rw [if_pos ham]
          have e2 : extend o.net.siteCols (y 0) x = coverage o.net total v0 x := by
            unfold extend
            rw [dif_pos hx, h0]
          rw [e1, e2]
          unfold coverage
          rw [if_neg ha]
          ring
        rw [hb] at hc
        linarith
      · exact (continuousOn_listSum fun a haf => hcont a (hads a (List.mem_filter.mp haf).1)).add (hcont x hx)
      · intro s hs'
        have hz := flow_totals h.ready h.clean h.kf h.kr h.one h.nsite (extend o.net.siteCols (y s)) x hs
        rw [← hz]
        exact (hasDerivAt_listSum fun a haf => hder s hs' a (hads a (List.mem_filter.mp haf).1)).fun_add (hder s hs' x hx)
  constructor
  · intro a ha
    exact hcont a (hads a ha)
  · intro t ht
    refine ⟨_, h.derivs _, ?_⟩
    rintro ⟨a, d⟩ hp
    obtain ⟨ha, rfl⟩ := mem_zip_map hp
    dsimp only
    rw [flow_congr h.ready.parse h.clean P C κf κr (hinv t ⟨ht.1.le, ht.2.le⟩) a]
    exact hder t ht a (hads a ha)

theorem field_inward {o : MFOwner ℝ} {total P C : Str → ℝ} {kf kr : List ℝ} {κf κr : Str → ℝ}
    (h : FlowOk o total P C kf kr κf κr) {v : Str → ℝ} (hph : PhysicalState o total P C v kf kr) :
    Flow.Inward (field o P C κf κr) := by
  intro y hy x hx
  unfold field
  apply flow_inward h.ready h.clean h.kf h.kr hph.kf hph.kr hph.gas hph.liq _ _ _ x.2
  · unfold extend
    rw [dif_pos x.2]
    exact hx
  · intro z hz
    unfold extend
    rw [dif_pos hz]
    exact hy _

theorem field_sum {o : MFOwner ℝ} {total P C : Str → ℝ} {kf kr : List ℝ} {κf κr : Str → ℝ}
    (h : FlowOk o total P C kf kr κf κr) (y : {x // x ∈ o.net.siteCols} → ℝ) : ∑ i, field o P C κf κr y i = 0 := by
  unfold field
  rw [sum_cols (siteCols_nodup h.ready.parse) fun x => flow o.net o.rxns P C κf κr (extend o.net.siteCols y) x]
  have hσ : ∃ σ : Str → Str, ∀ a ∈ o.net.ads, OnSite a (σ a) ∧ σ a ∈ o.net.sites := by
    refine ⟨fun a => match siteNameOf a with | .ok s => s | .error _ => [], ?_⟩
    intro a ha
    obtain ⟨s, hs, hon⟩ := ads_onSite h.ready.parse ha
    have e : siteNameOf a = .ok s := hon
    simp only [e]
    exact ⟨hon, hs⟩
  obtain ⟨σ, hσ⟩ := hσ
  have h1 := sum_by_site (C08_lists_sorted _ _ h.ready.parse).2.2 (flow o.net o.rxns P C κf κr (extend o.net.siteCols y)) (fun _ => 1) σ hσ
  simp only [mul_one] at h1
  have h2 : ∀ s ∈ o.net.sites, _ := flow_totals h.ready h.clean h.kf h.kr h.one h.nsite (extend o.net.siteCols y)
  generalize flow o.net o.rxns P C κf κr (extend o.net.siteCols y) = g at h1 h2
  rw [show o.net.siteCols = o.net.sites ++ o.net.ads from rfl, List.map_append, List.sum_append, ← h1, ← sum_map_add']
  apply sum_map_zero
  intro s hs
  rw [add_comm]
  exact h2 s hs

/-! ## C93 -/

/-- From physical coverages (none negative, no site over-full) no solution of the coverage equations
ever leaves the physical range: no coverage becomes negative and none exceeds the total of its site.
Missing: end states with transition states or starred species, species on both sides of a reaction,
adsorbates on several sites (C86_intermediate_refuted, C86_bridge_refuted). -/
theorem C93_physical_partial (o : MFOwner ℝ) (total P C : Str → ℝ) (kf kr : List ℝ) (κf κr : Str → ℝ)
    (h : FlowOk o total P C kf kr κf κr) (T : ℝ) (v : ℝ → Str → ℝ) (hv : Follows o (kf, kr) T v)
    (hph : PhysicalState o total P C (v 0) kf kr) :
    ∀ t ∈ Icc 0 T, PhysicalState o total P C (v t) kf kr ∧
      ∀ a ∈ o.net.ads, ∀ s ∈ o.net.sites, OnSite a s → 0 ≤ v t a ∧ v t a ≤ total s := by
  intro t ht
  have hnn := Flow.nonneg (Flow.lip_of_contDiff (field_contDiff o P C κf κr)) (field_inward h hph) (hv.solves h)
    (fun i => hph.theta i.1 i.2) t ht
  have hph' : PhysicalState o total P C (v t) kf kr := ⟨hph.kf, hph.kr, hph.gas, hph.liq, fun x hx => hnn ⟨x, hx⟩⟩
  refine ⟨hph', ?_⟩
  have hads : ∀ a ∈ o.net.ads, 0 ≤ v t a := by
    intro a ha
    have := hph'.theta a (by unfold Network.siteCols; exact List.mem_append_right _ ha)
    unfold coverage at this
    rwa [if_pos ha] at this
  intro a ha s hs hon
  refine ⟨hads a ha, ?_⟩
  have h1 := hph'.theta s (by unfold Network.siteCols; exact List.mem_append_left _ hs)
  unfold coverage at h1
  rw [if_neg (sites_disjoint h.ready.parse s hs)] at h1
  have h2 : v t a ≤ ((o.net.ads.filter fun a => OnSite a s).map (v t)).sum := by
    apply List.single_le_sum
    · intro x hx
      obtain ⟨b, hb, rfl⟩ := List.mem_map.mp hx
      exact hads b (List.mem_filter.mp hb).1
    · exact List.mem_map_of_mem (List.mem_filter.mpr ⟨ha, by simpa using hon⟩)
  linarith

/-- What is on the surface at the beginning (free sites too) never vanishes completely. -/
theorem C93_positive_partial (o : MFOwner ℝ) (total P C : Str → ℝ) (kf kr : List ℝ) (κf κr : Str → ℝ)
    (h : FlowOk o total P C kf kr κf κr) (T : ℝ) (v : ℝ → Str → ℝ) (hv : Follows o (kf, kr) T v)
    (hph : PhysicalState o total P C (v 0) kf kr) (x : Str) (hx : x ∈ o.net.siteCols)
    (h0 : 0 < coverage o.net total (v 0) x) : ∀ t ∈ Icc 0 T, 0 < coverage o.net total (v t) x :=
  Flow.positive (Flow.lip_of_contDiff (field_contDiff o P C κf κr)) (field_inward h hph) (hv.solves h)
    (fun i => hph.theta i.1 i.2) ⟨x, hx⟩ h0

/-- Two solutions that begin with the same coverages agree; more generally their distance grows at
most exponentially. -/
theorem C93_unique_partial (o : MFOwner ℝ) (total P C : Str → ℝ) (kf kr : List ℝ) (κf κr : Str → ℝ)
    (h : FlowOk o total P C kf kr κf κr) (T : ℝ) (v w : ℝ → Str → ℝ) (hv : Follows o (kf, kr) T v)
    (hw : Follows o (kf, kr) T w) :
    ((∀ a ∈ o.net.ads, v 0 a = w 0 a) → ∀ t ∈ Icc 0 T, ∀ a ∈ o.net.ads, v t a = w t a) ∧
    ∃ c, ∀ t ∈ Icc 0 T, (o.net.siteCols.map fun x => (coverage o.net total (v t) x - coverage o.net total (w t) x) ^ 2).sum
      ≤ (o.net.siteCols.map fun x => (coverage o.net total (v 0) x - coverage o.net total (w 0) x) ^ 2).sum * Real.exp (c * t) := by
  have hL := Flow.lip_of_contDiff (field_contDiff o P C κf κr)
  constructor
  · intro h0 t ht a ha
    have hb : (fun x : {x // x ∈ o.net.siteCols} => coverage o.net total (v 0) x.1) = fun x => coverage o.net total (w 0) x.1 := by
      funext x
      unfold coverage
      split
      · exact h0 _ ‹_›
      · congr 2
        apply List.map_congr_left
        intro b hb
        exact h0 b (List.mem_filter.mp hb).1
    have := congrFun (Flow.unique hL (hv.solves h) (hw.solves h) hb t ht) ⟨a, by
      unfold Network.siteCols; exact List.mem_append_right _ ha⟩
    dsimp only at this
    unfold coverage at this
    rwa [if_pos ha, if_pos ha] at this
  · obtain ⟨c, hc⟩ := Flow.close hL (hv.solves h) (hw.solves h)
    refine ⟨c, fun t ht => ?_⟩
    have := hc t ht
    rw [sum_cols (siteCols_nodup h.ready.parse) fun x => (coverage o.net total (v t) x - coverage o.net total (w t) x) ^ 2,
      sum_cols (siteCols_nodup h.ready.parse) fun x => (coverage o.net total (v 0) x - coverage o.net total (w 0) x) ^ 2] at this
    exact this

/-- From every physical beginning there is a solution for all times. -/
theorem C93_exists_partial (o : MFOwner ℝ) (total P C : Str → ℝ) (kf kr : List ℝ) (κf κr : Str → ℝ)
    (h : FlowOk o total P C kf kr κf κr) (v0 : Str → ℝ) (hph : PhysicalState o total P C v0 kf kr) :
    ∃ v : ℝ → Str → ℝ, (∀ a ∈ o.net.ads, v 0 a = v0 a) ∧ ∀ T, Follows o (kf, kr) T v := by
  obtain ⟨y, hy0, hy⟩ := Flow.exist_global (Flow.lip_of_contDiff (field_contDiff o P C κf κr)) (field_inward h hph)
    (field_sum h) (fun i => coverage o.net total v0 i.1) (fun i => hph.theta i.1 i.2)
  refine ⟨fun t => extend o.net.siteCols (y t), ?_, ?_⟩
  · intro a ha
    have hm : a ∈ o.net.siteCols := by unfold Network.siteCols; exact List.mem_append_right _ ha
    dsimp only
    unfold extend
    rw [dif_pos hm, hy0]
    dsimp only
    unfold coverage
    rw [if_pos ha]
  · intro T
    exact follows_of_solves h (hy T) v0 fun i => congrFun hy0 i

/-- A solution that begins in a steady state stays there. -/
theorem C93_rest_partial (o : MFOwner ℝ) (total P C : Str → ℝ) (kf kr : List ℝ) (κf κr : Str → ℝ)
    (h : FlowOk o total P C kf kr κf κr) (T : ℝ) (v : ℝ → Str → ℝ) (hv : Follows o (kf, kr) T v) (m : Nat)
    (hst : steadyStateFunction o (kf, kr) (o.net.ads.map (v 0)) = .ok (List.replicate m 0)) :
    ∀ t ∈ Icc 0 T, ∀ a ∈ o.net.ads, v t a = v 0 a := by
  refine (C93_unique_partial o total P C kf kr κf κr h T v (fun _ => v 0) hv ⟨fun a _ => continuousOn_const, ?_⟩).1 fun _ _ => rfl
  intro t _
  refine ⟨_, hst, ?_⟩
  rintro ⟨a, d⟩ hp
  have hd : d = 0 := List.eq_of_mem_replicate (List.of_mem_zip hp).2
  subst hd
  exact hasDerivAt_const t _

/-- Free energy of the surface: ideal mixtures of the adsorbates and free sites. -/
noncomputable def surfaceEnergy (kT : ℝ) (G : Str → ℝ) (n : Network) (θ : Str → ℝ) : ℝ :=
  (n.siteCols.map fun x => θ x * (G x + kT * (Real.log (θ x) - 1))).sum

/-- Amounts of the gases and liquids set free since the beginning, by the turnover frequencies. -/
structure Released (o : MFOwner ℝ) (k : List ℝ × List ℝ) (T : ℝ) (v m : ℝ → Str → ℝ) : Prop where
  cont : ∀ g ∈ o.net.gas ++ o.net.liq, ContinuousOn (fun t => m t g) (Icc 0 T)
  deriv : ∀ t ∈ Ioo 0 T, ∃ tofs, getTof o k (o.net.ads.map (v t)) = .ok tofs ∧
    ∀ p ∈ (o.net.gas ++ o.net.liq).zip tofs, HasDerivAt (fun τ => m τ p.1) p.2 t

theorem rateConstants_pos {ro : RateOwner} {algo : RateAlgo} {rel : RelDict ℝ} {kf kr : List ℝ} (hT : 0 < ro.T)
    (h : rateConstants ro algo rel = .ok (kf, kr)) : (∀ k ∈ kf, 0 < k) ∧ ∀ k ∈ kr, 0 < k := by
  have all : ∀ {rates : Str → Py (ℝ × ℝ)} {l : List (ℝ × ℝ)}, (∀ x rf rr, rates x = .ok (rf, rr) → 0 < rf ∧ 0 < rr) →
      ro.rxns.mapM rates = .ok l → (∀ k ∈ l.map (·.1), 0 < k) ∧ ∀ k ∈ l.map (·.2), 0 < k := by
    intro rates l hr hl
    have hpos : ∀ k ∈ l, 0 < k.1 ∧ 0 < k.2 := by
      intro k hk
      obtain ⟨x, -, hx⟩ := (mapM_ok_mem hl).1 k hk
      exact hr x _ _ hx
    constructor
    · intro k hk
      obtain ⟨x, hx, rfl⟩ := List.mem_map.mp hk
      exact (hpos x hx).1
    · intro k hk
      obtain ⟨x, hx, rfl⟩ := List.mem_map.mp hk
      exact (hpos x hx).2
  unfold rateConstants at h
  rw [guard_ok] at h
  obtain ⟨-, h⟩ := h
  cases algo with
  | other => exact nomatch h
  | CT =>
    rw [bind_ok] at h
    obtain ⟨l, hl, h⟩ := h
    rw [pure_ok] at h
    obtain ⟨rfl, rfl⟩ := Prod.mk.inj h
    exact all (fun x rf rr hx => ratesCT_pos hT hx) hl
  | TST =>
    rw [bind_ok] at h
    obtain ⟨l, hl, h⟩ := h
    rw [pure_ok] at h
    obtain ⟨rfl, rfl⟩ := Prod.mk.inj h
    refine all (fun x rf rr hx => ?_) hl
    obtain ⟨w', hw', t1, t2⟩ := ratesTST_ok.mp hx
    have hk := kBeV_pos
    have hh := heV_pos
    dsimp only at t1 t2
    refine ⟨?_, ?_⟩
    · rw [(kTST_ok hT.ne').mp t1]; positivity
    · rw [(kTST_ok hT.ne').mp t2]; positivity

theorem activity_site {rxns : List Str} {n : Network} (h : parseNetwork rxns = .ok n) (P C θ : Str → ℝ) {x : Str}
    (hx : x ∈ n.siteCols) : activity n P C θ x = θ x := by
  have := allCols_nodup h
  unfold allCols at this
  rw [List.nodup_append] at this
  have hno : ∀ y ∈ n.reaproCols, x ≠ y := fun y hy => this.2.2 x hx y hy
  unfold activity
  rw [if_neg, if_neg]
  · intro e; exact hno x (by unfold Network.reaproCols; exact List.mem_append_right _ e) rfl
  · intro e; exact hno x (by unfold Network.reaproCols; exact List.mem_append_left _ e) rfl

theorem activity_gas {n : Network} (P C θ θ' : Str → ℝ) {x : Str} (hx : x ∈ n.gas ++ n.liq) :
    activity n P C θ x = activity n P C θ' x := by
  unfold activity
  split
  · rfl
  · rename_i hg
    rcases List.mem_append.mp hx with e | e
    · exact absurd e hg
    · rw [if_pos e, if_pos e]

/-- Constants that fit energies are positive. -/
theorem fit_pos {rxns : List Str} {n : Network} (h : parseNetwork rxns = .ok n) {kT : ℝ} {G : Str → ℝ} {kf kr : List ℝ}
    (hfit : FitConstants rxns kT G kf kr) : (∀ k ∈ kf, 0 < k) ∧ ∀ k ∈ kr, 0 < k := by
  constructor
  · intro k hk
    obtain ⟨i, hi, rfl⟩ := List.mem_iff_getElem.mp hk
    obtain ⟨st, is, fs, g1, -, -, g4, g5, -⟩ := states_ok h (i := i) (by have := hfit.length; omega)
    obtain ⟨a, b, ha, -, pa, -⟩ := hfit.ratio i (by have := hfit.length; omega) st is fs g1 g4 g5
    rw [List.getElem?_eq_getElem hi] at ha
    rw [Option.some.inj ha]; exact pa
  · intro k hk
    obtain ⟨i, hi, rfl⟩ := List.mem_iff_getElem.mp hk
    obtain ⟨st, is, fs, g1, -, -, g4, g5, -⟩ := states_ok h (i := i) (by have := hfit.length; omega)
    obtain ⟨a, b, -, hb, -, pb, -⟩ := hfit.ratio i (by have := hfit.length; omega) st is fs g1 g4 g5
    rw [List.getElem?_eq_getElem hi] at hb
    rw [Option.some.inj hb]; exact pb

/-- The general form of `C93_energy_partial`: any constants that fit energies. -/
theorem energy_fit (o : MFOwner ℝ) (total P C : Str → ℝ) (h : Ready o total P C)
    (hc : ∀ states ∈ o.net.rxns, RateClean states) (hp : ∀ states ∈ o.net.rxns, PlainSites states)
    (G : Str → ℝ) (kT : ℝ) (hkT : 0 < kT) (kf kr : List ℝ) (hfit : FitConstants o.rxns kT G kf kr)
    (hone : ∀ a ∈ o.net.ads, ∀ states ∈ o.net.rxns, OneSided a states)
    (hn : ∀ a ∈ o.net.ads, ∀ f, chemFormula a = .ok f → f.nsite = 1) (T : ℝ) (v m : ℝ → Str → ℝ)
    (hv : Follows o (kf, kr) T v) (hm : Released o (kf, kr) T v m)
    (hpos : AllPositive o.net P C (coverage o.net total (v 0))) :
    AntitoneOn (fun t => surfaceEnergy kT G o.net (coverage o.net total (v t))
      + ((o.net.gas ++ o.net.liq).map fun g => m t g * potential kT G (activity o.net P C 0) g).sum) (Icc 0 T) := by
  obtain ⟨κf, κr, hκf, hκr⟩ := hfit.own
  obtain ⟨p1, p2⟩ := fit_pos h.parse hfit
  have hok : FlowOk o total P C kf kr κf κr := ⟨h, hc, hκf, hκr, hone, hn⟩
  have hin : ∀ x ∈ o.net.siteCols, x ∈ allCols o.net := fun x hx => by unfold allCols; exact List.mem_append_left _ hx
  have hin' : ∀ x ∈ o.net.gas ++ o.net.liq, x ∈ allCols o.net := fun x hx => by
    unfold allCols Network.reaproCols; exact List.mem_append_right _ hx
  have hgas : ∀ g ∈ o.net.gas, 0 < P g := by
    intro g hg
    have := hpos g (hin' g (List.mem_append_left _ hg))
    unfold activity at this
    rwa [if_pos hg] at this
  have hliq : ∀ g ∈ o.net.liq, 0 ≤ C g := by
    intro g hg
    have hno : g ∉ o.net.gas := by
      intro hg'
      have := (reaproCols_nodup h.parse)
      unfold Network.reaproCols at this
      rw [List.nodup_append] at this
      exact this.2.2 g hg' g hg rfl
    have := hpos g (hin' g (List.mem_append_right _ hg))
    unfold activity at this
    rw [if_neg hno, if_pos hg] at this
    exact this.le
  have hth0 : ∀ x ∈ o.net.siteCols, 0 < coverage o.net total (v 0) x := by
    intro x hx
    have := hpos x (hin x hx)
    rwa [activity_site h.parse P C _ hx] at this
  have hph : PhysicalState o total P C (v 0) kf kr :=
    ⟨fun k hk => (p1 k hk).le, fun k hk => (p2 k hk).le, fun g hg => (hgas g hg).le, hliq, fun x hx => (hth0 x hx).le⟩
  have hth : ∀ t ∈ Icc 0 T, ∀ x ∈ o.net.siteCols, 0 < coverage o.net total (v t) x := fun t ht x hx =>
    C93_positive_partial o total P C kf kr κf κr hok T v hv hph x hx (hth0 x hx) t ht
  have hsol := hv.solves hok
  have hd : ∀ t ∈ Ioo 0 T, ∃ d ≤ 0, HasDerivAt (fun t => surfaceEnergy kT G o.net (coverage o.net total (v t))
      + ((o.net.gas ++ o.net.liq).map fun g => m t g * potential kT G (activity o.net P C 0) g).sum) d t := by
    intro t ht
    have hti : t ∈ Icc 0 T := ⟨ht.1.le, ht.2.le⟩
    have hpt : AllPositive o.net P C (coverage o.net total (v t)) := by
      intro x hx
      unfold allCols at hx
      rcases List.mem_append.mp hx with e | e
      · rw [activity_site h.parse P C _ e]; exact hth t hti x e
      · rw [activity_gas P C _ (coverage o.net total (v 0)) e]
        exact hpos x (hin' x e)
    obtain ⟨net, g2, g3, g4, -⟩ := dissipation_fit o total P C h hc hp (v t) hpt G kT hkT kf kr hfit
    refine ⟨_, g4, ?_⟩
    rw [show allCols o.net = o.net.siteCols ++ (o.net.gas ++ o.net.liq) from rfl, List.map_append, List.sum_append]
    apply HasDerivAt.fun_add
    · unfold surfaceEnergy
      apply hasDerivAt_listSum (v := fun τ x => coverage o.net total (v τ) x * (G x + kT * (Real.log (coverage o.net total (v τ) x) - 1)))
      intro x hx
      have hdx : HasDerivAt (fun τ => coverage o.net total (v τ) x) (production o.net net x) t := by
        have h1 := hsol.deriv t ht ⟨x, hx⟩
        have h2 : field o P C κf κr (fun i => coverage o.net total (v t) i.1) ⟨x, hx⟩ = production o.net net x := by
          rw [production_flow h hc (v t) hκf hκr g2 x]
          unfold field
          exact flow_congr h.parse hc P C κf κr extend_of x
        rw [h2] at h1
        exact h1
      have hpx := hth t hti x hx
      have hlog := hdx.log hpx.ne'
      have := hdx.fun_mul (((hlog.sub_const 1).const_mul kT).const_add (G x))
      have he : production o.net net x * potential kT G (activity o.net P C (coverage o.net total (v t))) x
          = production o.net net x * (G x + kT * (Real.log (coverage o.net total (v t) x) - 1))
            + coverage o.net total (v t) x * (kT * (production o.net net x / coverage o.net total (v t) x)) := by
        unfold potential
        rw [activity_site h.parse P C _ hx]
        field_simp
        ring
      rw [he]
      exact this
    · apply hasDerivAt_listSum (v := fun τ g => m τ g * potential kT G (activity o.net P C 0) g)
      intro g hg
      obtain ⟨tofs, t1, t2⟩ := hm.deriv t ht
      rw [(C69_turnover o (kf, kr) _ net h.parse g2 g3).1] at t1
      cases t1
      have hdg := t2 _ (zip_map_mem hg)
      have : potential kT G (activity o.net P C (coverage o.net total (v t))) g
          = potential kT G (activity o.net P C 0) g := by
        unfold potential
        rw [activity_gas P C _ 0 hg]
      rw [this]
      exact hdg.mul_const _
  apply antitoneOn_of_deriv_nonpos (convex_Icc 0 T)
  · apply ContinuousOn.add
    · unfold surfaceEnergy
      apply continuousOn_listSum (v := fun τ x => coverage o.net total (v τ) x * (G x + kT * (Real.log (coverage o.net total (v τ) x) - 1)))
      intro x hx
      have hcx : ContinuousOn (fun τ => coverage o.net total (v τ) x) (Icc 0 T) := hsol.cont ⟨x, hx⟩
      exact hcx.mul (continuousOn_const.add (continuousOn_const.mul
        ((hcx.log fun t ht => (hth t ht x hx).ne').sub continuousOn_const)))
    · apply continuousOn_listSum (v := fun τ g => m τ g * potential kT G (activity o.net P C 0) g)
      intro g hg
      exact (hm.cont g hg).mul continuousOn_const
  · intro t ht
    rw [interior_Icc] at ht
    obtain ⟨d, -, h2⟩ := hd t ht
    exact h2.differentiableAt.differentiableWithinAt
  · intro t ht
    rw [interior_Icc] at ht
    obtain ⟨d, h1, h2⟩ := hd t ht
    rw [h2.deriv]
    exact h1

/-- With rate constants of transition state theory from absolute energies, the free energy of the
surface together with that of the gases and liquids set free never rises along a solution that begins
with everything present. Missing: moreover what C85 misses. -/
theorem C93_energy_partial (o : MFOwner ℝ) (total P C : Str → ℝ) (h : Ready o total P C)
    (hc : ∀ states ∈ o.net.rxns, RateClean states) (hp : ∀ states ∈ o.net.rxns, PlainSites states)
    (E : Dict Str ℝ) (G : Str → ℝ) (hG : Extends G E) (ro : RateOwner) (hro : ro.rxns = o.rxns) (hT : 0 < ro.T)
    (r : Rel ℝ) (hr : relativeFromAbsolute (some E) o.rxns = .ok r)
    (hone : ∀ a ∈ o.net.ads, ∀ states ∈ o.net.rxns, OneSided a states)
    (hn : ∀ a ∈ o.net.ads, ∀ f, chemFormula a = .ok f → f.nsite = 1) (k : List ℝ × List ℝ)
    (hk : rateConstants ro .TST ⟨some r.gaf, some r.gar, some r.dg⟩ = .ok k) (T : ℝ) (v m : ℝ → Str → ℝ)
    (hv : Follows o k T v) (hm : Released o k T v m)
    (hpos : AllPositive o.net P C (coverage o.net total (v 0))) :
    AntitoneOn (fun t => surfaceEnergy (kBeV * ro.T) G o.net (coverage o.net total (v t))
      + ((o.net.gas ++ o.net.liq).map fun g => m t g * potential (kBeV * ro.T) G (activity o.net P C 0) g).sum) (Icc 0 T) := by
  obtain ⟨kf, kr, hk', hfit⟩ := fit_TST E G hG ro hro hT r hr
  rw [hk] at hk'
  rw [Except.ok.inj hk'] at hv hm
  exact energy_fit o total P C h hc hp G _ (mul_pos kBeV_pos hT) kf kr hfit hone hn T v m hv hm hpos

/-- Such amounts exist for every solution. -/
theorem C93_released_partial (o : MFOwner ℝ) (total P C : Str → ℝ) (kf kr : List ℝ) (κf κr : Str → ℝ)
    (h : FlowOk o total P C kf kr κf κr) (T : ℝ) (v : ℝ → Str → ℝ) (hv : Follows o (kf, kr) T v) :
    ∃ m : ℝ → Str → ℝ, (∀ g, m 0 g = 0) ∧ Released o (kf, kr) T v m := by
  by_cases hT : 0 ≤ T
  · have hsol := hv.solves h
    -- the frequencies as functions of time, constant outside the interval
    let f : Str → ℝ → ℝ := fun g t => flow o.net o.rxns P C κf κr
      (extend o.net.siteCols fun x => coverage o.net total (v (max 0 (min T t))) x.1) g
    have hclamp : ∀ t, max 0 (min T t) ∈ Icc 0 T := fun t => ⟨le_max_left _ _, max_le hT (min_le_left _ _)⟩
    have hf : ∀ g, Continuous (f g) := by
      intro g
      have hc : Continuous fun t => fun x : {x // x ∈ o.net.siteCols} => coverage o.net total (v (max 0 (min T t))) x.1 := by
        apply continuous_pi
        intro x
        exact (hsol.cont x).comp_continuous (by fun_prop) hclamp
      exact (flow_contDiff o P C κf κr g).continuous.comp hc
    refine ⟨fun t g => ∫ s in (0 : ℝ)..t, f g s, fun g => by simp, ?_⟩
    have hder : ∀ g t, HasDerivAt (fun τ => ∫ s in (0 : ℝ)..τ, f g s) (f g t) t := fun g t =>
      intervalIntegral.integral_hasDerivAt_right ((hf g).intervalIntegrable _ _)
        (hf g).stronglyMeasurable.stronglyMeasurableAtFilter (hf g).continuousAt
    constructor
    · intro g _
      exact fun t _ => (hder g t).continuousAt.continuousWithinAt
    · intro t ht
      obtain ⟨net, h1, h2, -⟩ := C26_derivatives_partial o total P C h.ready h.clean (v t) kf kr κf κr h.kf h.kr h.one
      refine ⟨_, (C69_turnover o (kf, kr) _ net h.ready.parse h1 h2).1, ?_⟩
      rintro ⟨g, d⟩ hp
      obtain ⟨hg, rfl⟩ := mem_zip_map hp
      have := hder g t
      dsimp only
      rw [production_flow h.ready h.clean (v t) h.kf h.kr h1 g]
      have e : f g t = flow o.net o.rxns P C κf κr (coverage o.net total (v t)) g := by
        dsimp only [f]
        rw [min_eq_right ht.2.le, max_eq_right ht.1.le]
        exact flow_congr h.ready.parse h.clean P C κf κr extend_of g
      rw [← e]
      exact this
  · refine ⟨fun _ _ => 0, fun _ => rfl, fun g _ => continuousOn_const, ?_⟩
    intro t ht
    exact absurd (ht.1.trans ht.2).le hT

/-! ### an example: CO oxidation -/

theorem exFlow_nsite : ∀ a ∈ exDriveMF.net.ads, ∀ f, chemFormula a = .ok f → f.nsite = 1 := by
  have : ∀ a ∈ exNet.ads, (match chemFormula a with | .ok f => decide (f.nsite = 1) | .error _ => true) = true := by
    decide
  intro a ha f hf
  have := this a ha
  rw [hf] at this
  simpa using this

theorem exFlow_clean : ∀ st ∈ exDriveMF.net.rxns, RateClean st :=
  fun st hst => rateClean_of ((by decide : ∀ st ∈ exNet.rxns, rateCleanB st = true) st hst)

theorem exFlow_one : ∀ a ∈ exDriveMF.net.ads, ∀ st ∈ exDriveMF.net.rxns, OneSided a st :=
  fun a ha st hst => oneSided_of ((by decide : ∀ a ∈ exNet.ads, ∀ st ∈ exNet.rxns, oneSidedB a st = true) a ha st hst)

/-- CO oxidation from a quarter CO and a quarter O on the surface: the solution exists for all times,
stays physical with everything present, and free energy falls along it. -/
example : ∃ (k : List ℝ × List ℝ) (v : ℝ → Str → ℝ), (∀ a ∈ exDriveMF.net.ads, v 0 a = 1 / 4) ∧
    (∀ T, Follows exDriveMF k T v) ∧ (∀ T, ∀ t ∈ Icc 0 T, PhysicalState exDriveMF (fun _ => 1) (fun _ => 1) (fun _ => 1) (v t) k.1 k.2) ∧
    ∀ T, ∃ G m, Released exDriveMF k T v m ∧
      AntitoneOn (fun t => surfaceEnergy (kBeV * 450) G exDriveMF.net (coverage exDriveMF.net (fun _ => (1 : ℝ)) (v t))
        + ((exDriveMF.net.gas ++ exDriveMF.net.liq).map fun g =>
          m t g * potential (kBeV * 450) G (activity exDriveMF.net (fun _ => 1) (fun _ => 1) 0) g).sum) (Icc 0 T) := by
  obtain ⟨r, hr⟩ := (C12_complete_tables exDriveE exDriveMF.rxns exDriveMF.net exNet_ok).1 (by
    have hk : keys exDriveE = [str! "CO_g", str! "O2_g", str! "CO2_g", str! "*_s", str! "CO_s", str! "O_s",
      str! "CO-O_2s", str! "O-O_2s"] := rfl
    rw [hk]
    decide)
  obtain ⟨G, hG⟩ := exists_extends exDriveE
  have hpl : ∀ st ∈ exDriveMF.net.rxns, PlainSites st :=
    fun st hst => plainSites_of ((by decide : ∀ st ∈ exNet.rxns, plainSitesB st = true) st hst)
  obtain ⟨kf, kr, -, -, hk, -⟩ := C85_direction_partial exDriveMF _ _ _ exDrive_ready exFlow_clean hpl
    (fun _ => 1 / 4) exDrive_positive exDriveE G hG ⟨exRxns, 450, [], 0, 0, false⟩ rfl (by norm_num) r hr
  obtain ⟨-, -, κf, κr, hκf, hκr⟩ := kOk_rateConstants hk
  have hok : FlowOk exDriveMF (fun _ => 1) (fun _ => 1) (fun _ => 1) kf kr κf κr :=
    ⟨exDrive_ready, exFlow_clean, hκf, hκr, exFlow_one, exFlow_nsite⟩
  obtain ⟨p1, p2⟩ := rateConstants_pos (by norm_num) hk
  have hth : ∀ x ∈ exDriveMF.net.siteCols, 0 < coverage exDriveMF.net (fun _ => (1 : ℝ)) (fun _ => 1 / 4) x := by
    intro x hx
    have := exDrive_positive x (by unfold allCols; exact List.mem_append_left _ hx)
    rwa [activity_site exDrive_ready.parse _ _ _ hx] at this
  have hph : PhysicalState exDriveMF (fun _ => 1) (fun _ => 1) (fun _ => 1) (fun _ => 1 / 4) kf kr :=
    ⟨fun k hk => (p1 k hk).le, fun k hk => (p2 k hk).le, fun _ _ => zero_le_one, fun _ _ => zero_le_one,
      fun x hx => (hth x hx).le⟩
  obtain ⟨v, hv0, hv⟩ := C93_exists_partial _ _ _ _ _ _ _ _ hok _ hph
  have hcov : ∀ x, coverage exDriveMF.net (fun _ => (1 : ℝ)) (v 0) x = coverage exDriveMF.net (fun _ => (1 : ℝ)) (fun _ => 1 / 4) x := by
    intro x
    unfold coverage
    split
    · exact hv0 x ‹_›
    · congr 2
      apply List.map_congr_left
      intro a ha
      exact hv0 a (List.mem_filter.mp ha).1
  have hph0 : PhysicalState exDriveMF (fun _ => 1) (fun _ => 1) (fun _ => 1) (v 0) kf kr :=
    ⟨hph.kf, hph.kr, hph.gas, hph.liq, fun x hx => by rw [hcov x]; exact hph.theta x hx⟩
  refine ⟨(kf, kr), v, hv0, hv, fun T t ht => (C93_physical_partial _ _ _ _ _ _ _ _ hok T v (hv T) hph0 t ht).1, ?_⟩
  intro T
  obtain ⟨m, -, hm⟩ := C93_released_partial _ _ _ _ _ _ _ _ hok T v (hv T)
  refine ⟨G, m, hm, ?_⟩
  have hp0 : AllPositive exDriveMF.net (fun _ => 1) (fun _ => 1) (coverage exDriveMF.net (fun _ => (1 : ℝ)) (v 0)) := by
    rw [show coverage exDriveMF.net (fun _ => (1 : ℝ)) (v 0) = _ from funext hcov]
    exact exDrive_positive
  exact C93_energy_partial exDriveMF _ _ _ exDrive_ready exFlow_clean hpl exDriveE G hG
    ⟨exRxns, 450, [], 0, 0, false⟩ rfl (by norm_num) r hr exFlow_one exFlow_nsite (kf, kr) hk T v m (hv T) hm hp0

/-- An isomerisation at equilibrium. -/
noncomputable def exIsoMF : MFOwner ℝ := ⟨[str! "HCO_s -> COH_s"], netOf [str! "HCO_s -> COH_s"], [(str! "*_s", 1)], [], []⟩

theorem exIso_ok : FlowOk exIsoMF (fun _ => 1) (fun _ => 0) (fun _ => 0) [1] [1] (fun _ => 1) (fun _ => 1) := by
  have e1 : exIsoMF.net.sites = [str! "*_s"] := by decide
  have e2 : exIsoMF.net.gas = [] := by decide
  have e3 : exIsoMF.net.liq = [] := by decide
  refine ⟨⟨by decide, ?_, by rw [e2]; simp, by rw [e3]; simp⟩,
    fun st hst => rateClean_of ((by decide : ∀ st ∈ exIsoMF.net.rxns, rateCleanB st = true) st hst), ⟨?_⟩, ⟨?_⟩,
    fun a ha st hst => oneSided_of ((by decide : ∀ a ∈ exIsoMF.net.ads, ∀ st ∈ exIsoMF.net.rxns, oneSidedB a st = true) a ha st hst), ?_⟩
  · rw [e1]; simp only [List.mem_singleton, forall_eq]; rfl
  · intro i hi
    have : i = 0 := by
      have : exIsoMF.rxns.length = 1 := rfl
      omega
    subst this; rfl
  · intro i hi
    have : i = 0 := by
      have : exIsoMF.rxns.length = 1 := rfl
      omega
    subst this; rfl
  · have : ∀ a ∈ exIsoMF.net.ads, (match chemFormula a with | .ok f => decide (f.nsite = 1) | .error _ => true) = true := by
      decide
    intro a ha f hf
    have := this a ha
    rw [hf] at this
    simpa using this

example : steadyStateFunction exIsoMF ([1], [1]) (exIsoMF.net.ads.map fun _ => 1 / 4) = .ok (List.replicate 2 0) := by
  rw [exIso_ok.derivs]
  have e1 : exIsoMF.net.ads = [str! "COH_s", str! "HCO_s"] := by decide
  have e2 : ∃ f g : Formula, exIsoMF.net.rxns = [[[f], [g]]] ∧ specKind f.species f.site = .ads ∧ specKind g.species g.site = .ads ∧
      f.stoich = 1 ∧ g.stoich = 1 ∧ f.speciesSite = str! "HCO_s" ∧ g.speciesSite = str! "COH_s" := by
    refine ⟨_, _, rfl, ?_⟩
    decide
  obtain ⟨f, g, h1, h2, h3, h4, h5, h6, h7⟩ := e2
  have e3 : exIsoMF.rxns = [str! "HCO_s -> COH_s"] := rfl
  rw [e1]
  unfold flow
  rw [h1, e3]
  simp [rateOf, stateActivity, specAct, h2, h3, h4, h5, h6, h7, coverage, e1]

end Verif
