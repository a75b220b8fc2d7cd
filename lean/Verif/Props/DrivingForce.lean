import Verif.Props.MeanField
import Mathlib.Analysis.SpecialFunctions.Log.Basic
import Mathlib.Tactic.Linarith
import Mathlib.Tactic.FieldSimp
/-
Property C85: with rate constants from absolute energies, every reaction runs downhill in free
energy, and the coverage equations dissipate free energy.
-/
namespace Verif
open Dict
set_option linter.unusedSectionVars false

/-! ### specification: chemical potentials -/

/-- Activity of a listed name: pressure, concentration or coverage. -/
def activity (n : Network) (P C θ : Str → ℝ) (x : Str) : ℝ :=
  if x ∈ n.gas then P x else if x ∈ n.liq then C x else θ x

/-- Chemical potential: energy plus `k T` times the logarithm of the activity. -/
noncomputable def potential (kT : ℝ) (G a : Str → ℝ) (x : Str) : ℝ := G x + kT * Real.log (a x)

/-- Potential of a state: each species with its coefficient. -/
def statePotential (μ : Str → ℝ) (fs : List Formula) : ℝ :=
  (fs.map fun f => (f.stoich : ℝ) * μ f.speciesSite).sum

/-! ### helpers -/

/-- The columns of both matrices together. -/
def allCols (n : Network) : List Str := n.siteCols ++ n.reaproCols

theorem allCols_nodup {rxns : List Str} {n : Network} (h : parseNetwork rxns = .ok n) : (allCols n).Nodup := by
  unfold allCols
  rw [List.nodup_append]
  refine ⟨siteCols_nodup h, reaproCols_nodup h, ?_⟩
  rintro x hx y hy rfl
  have hf : ∃ f, OccursIn rxns f ∧ f.speciesSite = x ∧
      (specKind f.species f.site = .gas ∨ specKind f.species f.site = .liquid) := by
    rcases List.mem_append.mp hy with hx | hx
    · obtain ⟨f, hf, hk, he⟩ := (mem_names_iff h .gas (by decide) x).mp hx
      exact ⟨f, hf, he, Or.inl hk⟩
    · obtain ⟨f, hf, hk, he⟩ := (mem_names_iff h .liquid (by decide) x).mp hx
      exact ⟨f, hf, he, Or.inr hk⟩
  obtain ⟨f, hf, rfl, hk⟩ := hf
  have := (listed_iff h hf).2.2 hx
  rcases hk with e | e <;> rcases this with e' | e' <;> rw [e] at e' <;> cases e'

/-- A formula of a clean end state is listed, its activity and energy are those of its name. -/
theorem clean_formula {rxns : List Str} {n : Network} (h : parseNetwork rxns = .ok n) {f : Formula}
    (hf : OccursIn rxns f) (h1 : specKind f.species f.site ≠ .ts)
    (h2 : specKind f.species f.site = .empty → f.speciesSite = str! "*_" ++ f.site)
    (h3 : (specKind f.species f.site = .gas ∨ specKind f.species f.site = .liquid) → '*' ∉ f.speciesSite)
    (h4 : '*' ∉ f.site) (P C θ : Str → ℝ) :
    f.speciesSite ∈ allCols n ∧ specAct P C θ f = activity n P C θ f.speciesSite ∧
      energyKey f = f.speciesSite := by
  obtain ⟨l1, l2, -⟩ := listed_iff h hf
  have once := C08_listed_exactly_once _ _ h f hf
  obtain ⟨ns, gf⟩ := network_good h f ((mem_flat_iff h f).mpr hf)
  have hgas : f.speciesSite ∈ n.gas ↔ specKind f.species f.site = .gas :=
    (once .gas).trans ⟨fun x => x.1, fun x => ⟨x, by decide⟩⟩
  have hliq : f.speciesSite ∈ n.liq ↔ specKind f.species f.site = .liquid :=
    (once .liquid).trans ⟨fun x => x.1, fun x => ⟨x, by decide⟩⟩
  refine ⟨?_, ?_, ?_⟩
  · unfold allCols
    rw [List.mem_append]
    cases hk : specKind f.species f.site with
    | gas => exact Or.inr (l1.mpr (Or.inl hk))
    | liquid => exact Or.inr (l1.mpr (Or.inr hk))
    | ts => exact absurd hk h1
    | ads => exact Or.inl (l2 hk)
    | empty =>
      left
      have hne : f.site ≠ str! "g" ∧ f.site ≠ str! "l" := by
        constructor <;> intro e <;> simp [specKind, e] at hk
      unfold Network.siteCols
      rw [List.mem_append, C08_site_names _ _ h]
      exact Or.inl ⟨f, hf, hne.1, hne.2, h2 hk⟩
  · unfold activity specAct
    cases hk : specKind f.species f.site with
    | gas => rw [if_pos (hgas.mpr hk)]
    | liquid => rw [if_neg (by rw [hgas, hk]; decide), if_pos (hliq.mpr hk)]
    | ts => exact absurd hk h1
    | ads => rw [if_neg (by rw [hgas, hk]; decide), if_neg (by rw [hliq, hk]; decide)]
    | empty => rw [if_neg (by rw [hgas, hk]; decide), if_neg (by rw [hliq, hk]; decide)]
  · unfold energyKey
    split
    · rename_i hstar
      have hsp : '*' ∈ f.species := by
        rw [gf.name] at hstar
        rcases List.mem_append.mp hstar with hm | hm
        · exact hm
        · rcases List.mem_cons.mp hm with e | hm
          · cases e
          · rcases List.mem_append.mp hm with hm | hm
            · exact absurd (gf.num _ hm) (by decide)
            · exact absurd hm h4
      cases hk : specKind f.species f.site with
      | gas => exact absurd hstar (h3 (Or.inl hk))
      | liquid => exact absurd hstar (h3 (Or.inr hk))
      | ts => exact absurd hk h1
      | ads =>
        exfalso
        unfold specKind at hk
        simp only [List.contains_iff_mem] at hk
        split at hk
        · cases hk
        · split at hk
          · cases hk
          · split at hk
            · cases hk
            · first
                | cases hk
                | (split at hk <;> first | cases hk | contradiction)
      | empty => exact (h2 hk).symm
    · rfl

theorem stateActivity_pos {P C θ : Str → ℝ} {fs : List Formula} (h : ∀ f ∈ fs, 0 < specAct P C θ f) :
    0 < stateActivity P C θ fs := by
  unfold stateActivity
  induction fs with
  | nil => simp
  | cons f fs ih =>
    rw [List.map_cons, List.prod_cons]
    exact mul_pos (pow_pos (h f (by simp)) _) (ih fun g hg => h g (by simp [hg]))

/-- The potential of a state is its energy plus `k T` times the logarithm of its activity. -/
theorem statePotential_eq {kT : ℝ} {G a P C θ : Str → ℝ} {fs : List Formula}
    (h1 : ∀ f ∈ fs, specAct P C θ f = a f.speciesSite ∧ energyKey f = f.speciesSite ∧ 0 < a f.speciesSite) :
    statePotential (potential kT G a) fs = specEnergy G fs + kT * Real.log (stateActivity P C θ fs) := by
  induction fs with
  | nil => simp [statePotential, specEnergy, stateActivity]
  | cons f fs ih =>
    obtain ⟨e1, e2, e3⟩ := h1 f (by simp)
    have hfs : ∀ g ∈ fs, _ := fun g hg => h1 g (by simp [hg])
    have ih := ih hfs
    have hp := stateActivity_pos (P := P) (C := C) (θ := θ) (fs := fs)
      (fun g hg => by rw [(hfs g hg).1]; exact (hfs g hg).2.2)
    have hE : specEnergy G (f :: fs) = (f.stoich : ℝ) * G (energyKey f) + specEnergy G fs := by
      unfold specEnergy energyKey
      rw [List.map_cons, List.sum_cons]
    have hA : stateActivity P C θ (f :: fs) = specAct P C θ f ^ f.stoich * stateActivity P C θ fs := by
      unfold stateActivity
      rw [List.map_cons, List.prod_cons]
    have hS : statePotential (potential kT G a) (f :: fs)
        = (f.stoich : ℝ) * potential kT G a f.speciesSite + statePotential (potential kT G a) fs := by
      unfold statePotential
      rw [List.map_cons, List.sum_cons]
    rw [hS, hE, hA, ih, e2, e1, Real.log_mul (pow_pos e3 _).ne' hp.ne', Real.log_pow]
    unfold potential
    ring

/-- Summed over a list of distinct names that contains all species of the state. -/
theorem sum_totalCoef {l : List Str} (hl : l.Nodup) (w : Str → ℝ) {fs : List Formula}
    (h : ∀ f ∈ fs, f.speciesSite ∈ l) :
    (l.map fun x => (totalCoef x fs : ℝ) * w x).sum = statePotential w fs := by
  induction fs with
  | nil =>
    rw [sum_map_zero]
    · rfl
    · intro x _; simp [totalCoef]
  | cons f fs ih =>
    have hS : statePotential w (f :: fs) = (f.stoich : ℝ) * w f.speciesSite + statePotential w fs := by
      unfold statePotential
      rw [List.map_cons, List.sum_cons]
    rw [hS, ← ih fun g hg => h g (by simp [hg])]
    have hone : (l.map fun x => if x = f.speciesSite then (f.stoich : ℝ) * w f.speciesSite else 0).sum
        = (f.stoich : ℝ) * w f.speciesSite := by
      have hm := h f (by simp)
      clear ih h hS
      induction l with
      | nil => simp at hm
      | cons x l ihl =>
        rw [List.nodup_cons] at hl
        rw [List.map_cons, List.sum_cons]
        by_cases e : x = f.speciesSite
        · rw [if_pos e, sum_map_zero]
          · ring
          · intro y hy
            rw [if_neg]
            rintro rfl
            exact hl.1 (e ▸ hy)
        · rw [if_neg e, ihl hl.2 (by
            rcases List.mem_cons.mp hm with e' | e'
            · exact absurd e'.symm e
            · exact e')]
          ring
    rw [← hone, ← sum_map_add']
    congr 1
    apply List.map_congr_left
    intro x _
    unfold totalCoef
    by_cases e : f.speciesSite = x
    · rw [if_pos e.symm, List.filter_cons_of_pos (by simpa using e)]
      subst e
      simp only [List.map_cons, List.sum_cons]
      push_cast
      ring
    · rw [if_neg (fun h => e h.symm), List.filter_cons_of_neg (by simpa using e)]
      ring

/-- What a reaction produces, weighted, is the difference of its end states. -/
theorem sum_produced {rxns : List Str} {n : Network} (h : parseNetwork rxns = .ok n)
    {st : List (List Formula)} {is fs : List Formula} (e1 : st.head? = some is) (e2 : st.getLast? = some fs)
    (h1 : ∀ f ∈ is, f.speciesSite ∈ allCols n) (h2 : ∀ f ∈ fs, f.speciesSite ∈ allCols n) (w : Str → ℝ) :
    ((allCols n).map fun x => (produced x st : ℝ) * w x).sum = statePotential w fs - statePotential w is := by
  rw [← sum_totalCoef (allCols_nodup h) w h1, ← sum_totalCoef (allCols_nodup h) w h2, sub_eq_add_neg,
    ← sum_map_neg', ← sum_map_add']
  congr 1
  apply List.map_congr_left
  intro x _
  unfold produced
  rw [e1, e2]
  simp only [stateCoef]
  push_cast
  ring

/-! ## C85 -/

/-- No site name of the end states contains a star. -/
def PlainSites (states : List (List Formula)) : Prop :=
  ∀ fs, (states.head? = some fs ∨ states.getLast? = some fs) → ∀ f ∈ fs, '*' ∉ f.site

/-- All names of the network have a positive activity. -/
def AllPositive (n : Network) (P C θ : Str → ℝ) : Prop := ∀ x ∈ allCols n, 0 < activity n P C θ x

/-- Rate constants that fit energies: position by position, the constants of a reaction are positive and
their ratio is the exponential of minus the change of energy over `k T`. Equal reactions have equal constants. -/
structure FitConstants (rxns : List Str) (kT : ℝ) (G : Str → ℝ) (kf kr : List ℝ) : Prop where
  length : kf.length = rxns.length ∧ kr.length = rxns.length
  own : ∃ κf κr, KOk rxns kf κf ∧ KOk rxns kr κr
  ratio : ∀ i (hi : i < rxns.length) states is fs, eqnFormulas rxns[i] = .ok states →
    states.head? = some is → states.getLast? = some fs →
    ∃ a b, kf[i]? = some a ∧ kr[i]? = some b ∧ 0 < a ∧ 0 < b ∧
      a / b = Real.exp (-(specEnergy G fs - specEnergy G is) / kT)

/-- The general form of `C85_direction_partial`: any constants that fit energies. -/
theorem direction_fit (o : MFOwner ℝ) (total P C : Str → ℝ) (h : Ready o total P C)
    (hc : ∀ states ∈ o.net.rxns, RateClean states)
    (hp : ∀ states ∈ o.net.rxns, PlainSites states) (v : Str → ℝ)
    (hpos : AllPositive o.net P C (coverage o.net total v))
    (G : Str → ℝ) (kT : ℝ) (hkT : 0 < kT) (kf kr : List ℝ) (hfit : FitConstants o.rxns kT G kf kr) :
    ∃ rfs rrs, getRates o (kf, kr) (o.net.ads.map v) = .ok (rfs, rrs) ∧
      rfs.length = o.rxns.length ∧ rrs.length = o.rxns.length ∧
      ∀ i (hi : i < o.rxns.length) states is fs, eqnFormulas o.rxns[i] = .ok states →
        states.head? = some is → states.getLast? = some fs →
        ∃ a b, rfs[i]? = some a ∧ rrs[i]? = some b ∧ 0 < a ∧ 0 < b ∧
          let μ := statePotential (potential kT G (activity o.net P C (coverage o.net total v)))
          b / a = Real.exp ((μ fs - μ is) / kT) ∧
          (0 < a - b ↔ μ fs < μ is) ∧ (a - b = 0 ↔ μ fs = μ is) ∧ (a - b < 0 ↔ μ is < μ fs) := by
  obtain ⟨κf, κr, hκf, hκr⟩ := hfit.own
  obtain ⟨rfs, rrs, h1, h2, h3, h4⟩ := getRates_ok h hc v kf kr κf κr hκf hκr
  refine ⟨rfs, rrs, h1, h2, h3, ?_⟩
  intro i hi states is fs e1 e2 e3
  obtain ⟨ra, rb⟩ := h4 i hi states is fs e1 e2 e3
  refine ⟨_, _, ra, rb, ?_⟩
  obtain ⟨kf, kr, ka, kb, p1, p2, hk3⟩ := hfit.ratio i hi states is fs e1 e2 e3
  rw [hκf.get i hi] at ka
  rw [hκr.get i hi] at kb
  have ka := Option.some.inj ka
  have kb := Option.some.inj kb
  rw [ka, kb]
  clear ka kb ra rb
  obtain ⟨st', is', fs', g1, g2, -, g4, g5, o1, o2⟩ := states_ok h.parse hi
  rw [e1] at g1; cases g1
  rw [e2] at g4; cases g4
  rw [e3] at g5; cases g5
  have hcl := clean_at hc g2
  have hform : ∀ gs, (states.head? = some gs ∨ states.getLast? = some gs) → (∀ f ∈ gs, OccursIn o.rxns f) →
      ∀ f ∈ gs, specAct P C (coverage o.net total v) f = activity o.net P C (coverage o.net total v) f.speciesSite ∧
        energyKey f = f.speciesSite ∧ 0 < activity o.net P C (coverage o.net total v) f.speciesSite := by
    intro gs hgs hocc f hf
    obtain ⟨c1, c2, c3⟩ := clean_formula h.parse (hocc f hf) (hcl.1.1 gs hgs f hf).1 (hcl.1.2 gs hgs f hf)
      (hcl.2 gs hgs f hf) (hp _ (List.mem_of_getElem? g2) gs hgs f hf) P C (coverage o.net total v)
    exact ⟨c2, c3, hpos _ c1⟩
  have fis := hform is (Or.inl e2) o1
  have ffs := hform fs (Or.inr e3) o2
  have ais : 0 < stateActivity P C (coverage o.net total v) is :=
    stateActivity_pos fun f hf => by rw [(fis f hf).1]; exact (fis f hf).2.2
  have afs : 0 < stateActivity P C (coverage o.net total v) fs :=
    stateActivity_pos fun f hf => by rw [(ffs f hf).1]; exact (ffs f hf).2.2
  have hquot : kr * stateActivity P C (coverage o.net total v) fs / (kf * stateActivity P C (coverage o.net total v) is)
      = Real.exp ((statePotential (potential kT G (activity o.net P C (coverage o.net total v))) fs
        - statePotential (potential kT G (activity o.net P C (coverage o.net total v))) is)
          / kT) := by
    rw [statePotential_eq fis, statePotential_eq ffs]
    have e : (specEnergy G fs + kT * Real.log (stateActivity P C (coverage o.net total v) fs)
        - (specEnergy G is + kT * Real.log (stateActivity P C (coverage o.net total v) is))) / kT
        = Real.log (stateActivity P C (coverage o.net total v) fs)
          - Real.log (stateActivity P C (coverage o.net total v) is) - (-(specEnergy G fs - specEnergy G is) / kT) := by
      have e1 := hkT.ne'
      field_simp
      ring
    rw [e, Real.exp_sub, Real.exp_sub, Real.exp_log ais, Real.exp_log afs, ← hk3]
    field_simp
  have hpa := mul_pos p1 ais
  have hpb := mul_pos p2 afs
  refine ⟨hpa, hpb, hquot, ?_, ?_, ?_⟩
  · rw [sub_pos, ← div_lt_one hpa, hquot, Real.exp_lt_one_iff, div_neg_iff]
    constructor
    · rintro (⟨-, h⟩ | ⟨h, -⟩)
      · exact absurd h (not_lt.mpr hkT.le)
      · linarith
    · intro h; exact Or.inr ⟨by linarith, hkT⟩
  · rw [sub_eq_zero, eq_comm, ← div_eq_one_iff_eq hpa.ne', hquot, Real.exp_eq_one_iff, div_eq_zero_iff, sub_eq_zero]
    constructor
    · rintro (h | h)
      · exact h
      · exact absurd h hkT.ne'
    · exact Or.inl
  · rw [sub_neg, ← one_lt_div hpa, hquot, Real.one_lt_exp_iff, div_pos_iff]
    constructor
    · rintro (⟨h, -⟩ | ⟨-, h⟩)
      · linarith
      · exact absurd h (not_lt.mpr hkT.le)
    · intro h; exact Or.inl ⟨by linarith, hkT⟩

/-- Constants of transition state theory from absolute energies fit these energies. -/
theorem fit_TST {rxns : List Str} (E : Dict Str ℝ) (G : Str → ℝ) (hG : Extends G E) (ro : RateOwner) (hro : ro.rxns = rxns) (hT : 0 < ro.T)
    (r : Rel ℝ) (hr : relativeFromAbsolute (some E) rxns = .ok r) :
    ∃ kf kr, rateConstants ro .TST ⟨some r.gaf, some r.gar, some r.dg⟩ = .ok (kf, kr) ∧
      FitConstants rxns (kBeV * ro.T) G kf kr := by
  have hone : ∀ rxn ∈ ro.rxns, ∃ k, ratesTST ro ⟨some r.gaf, some r.gar, some r.dg⟩ false rxn = .ok k := by
    intro rxn hx
    obtain ⟨v, kf, kr, -, h2, -⟩ := C17_from_absolute_energies E ro r hT (by rw [hro]; exact hr) rxn hx
    exact ⟨_, h2⟩
  obtain ⟨l, hl⟩ := mapM_ok_exists hone
  obtain ⟨ll, lg⟩ := mapM_ok_inv hl
  have hk : rateConstants ro .TST ⟨some r.gaf, some r.gar, some r.dg⟩ = .ok (l.map (·.1), l.map (·.2)) := by
    unfold rateConstants
    rw [if_neg (by simp)]
    simp only [hl, bind, Except.bind]
    rfl
  obtain ⟨k1, k2, k3⟩ := kOk_rateConstants hk
  rw [hro] at k1 k2 k3
  refine ⟨_, _, hk, ⟨k1, k2⟩, k3, ?_⟩
  intro i hi states is fs e1 e2 e3
  have hi' : i < ro.rxns.length := by rw [hro]; exact hi
  have hrx : ro.rxns[i] = rxns[i] := by simp only [hro]
  have hlt : i < l.length := by omega
  have hk1 := lg i hi' hlt
  obtain ⟨w, kf, kr, hw, hk2, hk3⟩ := C17_from_absolute_energies E ro r hT (by rw [hro]; exact hr)
    ro.rxns[i] (List.getElem_mem _)
  obtain ⟨w', hw', t1, t2⟩ := ratesTST_ok.mp hk2
  have hkB := kBeV_pos
  have hh := heV_pos
  rw [hk1] at hk2
  have hk2 := Except.ok.inj hk2
  rw [hrx] at hw
  obtain ⟨st', is', fs', g1, g2, g3, -, hdg, -⟩ := C12_single_reaction E G hG _ _ hw
  rw [e1] at g1; cases g1
  rw [e2] at g2; cases g2
  rw [e3] at g3; cases g3
  refine ⟨kf, kr, by simp [hlt, hk2], by simp [hlt, hk2], ?_, ?_, ?_⟩
  · dsimp only at t1; rw [(kTST_ok hT.ne').mp t1]; positivity
  · dsimp only at t2; rw [(kTST_ok hT.ne').mp t2]; positivity
  · rw [hk3, hdg]

/-- Rates of a model whose constants come from absolute energies by transition state theory, at
positive coverages, pressures and concentrations: all rates are positive; the ratio of reverse to
forward rate is the exponential of the change of chemical potential over `k T`; so each reaction
runs from higher to lower potential, and stands still exactly when they are equal. Missing: end
states with transition states or starred species (as in C25), and sites with a star in their name,
see the refutation. -/
theorem C85_direction_partial (o : MFOwner ℝ) (total P C : Str → ℝ) (h : Ready o total P C)
    (hc : ∀ states ∈ o.net.rxns, RateClean states)
    (hp : ∀ states ∈ o.net.rxns, PlainSites states) (v : Str → ℝ)
    (hpos : AllPositive o.net P C (coverage o.net total v))
    (E : Dict Str ℝ) (G : Str → ℝ) (hG : Extends G E) (ro : RateOwner) (hro : ro.rxns = o.rxns) (hT : 0 < ro.T)
    (r : Rel ℝ) (hr : relativeFromAbsolute (some E) o.rxns = .ok r) :
    ∃ kf kr rfs rrs, rateConstants ro .TST ⟨some r.gaf, some r.gar, some r.dg⟩ = .ok (kf, kr) ∧
      getRates o (kf, kr) (o.net.ads.map v) = .ok (rfs, rrs) ∧
      rfs.length = o.rxns.length ∧ rrs.length = o.rxns.length ∧
      ∀ i (hi : i < o.rxns.length) states is fs, eqnFormulas o.rxns[i] = .ok states →
        states.head? = some is → states.getLast? = some fs →
        ∃ a b, rfs[i]? = some a ∧ rrs[i]? = some b ∧ 0 < a ∧ 0 < b ∧
          let μ := statePotential (potential (kBeV * ro.T) G (activity o.net P C (coverage o.net total v)))
          b / a = Real.exp ((μ fs - μ is) / (kBeV * ro.T)) ∧
          (0 < a - b ↔ μ fs < μ is) ∧ (a - b = 0 ↔ μ fs = μ is) ∧ (a - b < 0 ↔ μ is < μ fs) := by
  obtain ⟨kf, kr, hk, hfit⟩ := fit_TST E G hG ro hro hT r hr
  obtain ⟨rfs, rrs, g⟩ := direction_fit o total P C h hc hp v hpos G _ (mul_pos kBeV_pos hT) kf kr hfit
  exact ⟨kf, kr, rfs, rrs, hk, g⟩

theorem sum_zip_nonpos {α : Type} (f : α → ℝ → ℝ) (l : List α) (r : List ℝ) (hlen : l.length = r.length)
    (h : ∀ p ∈ l.zip r, f p.1 p.2 ≤ 0 ∧ (f p.1 p.2 = 0 ↔ p.2 = 0)) :
    (List.zipWith f l r).sum ≤ 0 ∧ ((List.zipWith f l r).sum = 0 ↔ ∀ x ∈ r, x = 0) := by
  induction l generalizing r with
  | nil =>
    cases r with
    | nil => simp
    | cons => simp at hlen
  | cons a l ih =>
    cases r with
    | nil => simp at hlen
    | cons x r =>
      obtain ⟨i1, i2⟩ := ih r (by simpa using hlen) fun p hp => h p (by simp [hp])
      obtain ⟨h1, h2⟩ := h (a, x) (by simp)
      dsimp only at h1 h2
      rw [List.zipWith_cons_cons, List.sum_cons]
      refine ⟨by linarith, ?_⟩
      rw [List.forall_mem_cons, ← i2, ← h2]
      constructor
      · intro h; constructor <;> linarith
      · rintro ⟨e1, e2⟩; rw [e1, e2, add_zero]

/-- The general form of `C85_dissipation_partial`. -/
theorem dissipation_fit (o : MFOwner ℝ) (total P C : Str → ℝ) (h : Ready o total P C)
    (hc : ∀ states ∈ o.net.rxns, RateClean states)
    (hp : ∀ states ∈ o.net.rxns, PlainSites states) (v : Str → ℝ)
    (hpos : AllPositive o.net P C (coverage o.net total v))
    (G : Str → ℝ) (kT : ℝ) (hkT : 0 < kT) (kf kr : List ℝ) (hfit : FitConstants o.rxns kT G kf kr) :
    ∃ net, getNetRates o (kf, kr) (o.net.ads.map v) = .ok net ∧ net.length = o.rxns.length ∧
      let μ := potential kT G (activity o.net P C (coverage o.net total v))
      ((allCols o.net).map fun x => production o.net net x * μ x).sum ≤ 0 ∧
      (((allCols o.net).map fun x => production o.net net x * μ x).sum = 0 ↔ ∀ x ∈ net, x = 0) := by
  obtain ⟨rfs, rrs, h2, h3, h4, h5⟩ := direction_fit o total P C h hc hp v hpos G kT hkT kf kr hfit
  refine ⟨List.zipWith (· - ·) rfs rrs, ?_, by simp [h3, h4], ?_⟩
  · unfold getNetRates; rw [h2]; rfl
  intro μ
  have hl := length_rxns h.parse
  unfold production
  rw [production_swap]
  apply sum_zip_nonpos
  · simp [hl, h3, h4]
  · intro p hpm
    obtain ⟨i, hi, rfl⟩ := List.mem_iff_getElem.mp hpm
    rw [List.length_zip, List.length_zipWith] at hi
    have hi' : i < o.rxns.length := by omega
    obtain ⟨st, is, fs, g1, g2, -, g4, g5, o1, o2⟩ := states_ok h.parse hi'
    obtain ⟨a, b, ra, rb, -, -, -, c1, c2, c3⟩ := h5 i hi' st is fs g1 g4 g5
    rw [List.getElem?_eq_getElem (by omega)] at g2 ra rb
    rw [List.getElem_zip, List.getElem_zipWith, Option.some.inj g2, Option.some.inj ra, Option.some.inj rb]
    dsimp only
    have hcl := hc st (by rw [← Option.some.inj g2]; exact List.getElem_mem _)
    have hpl := hp st (by rw [← Option.some.inj g2]; exact List.getElem_mem _)
    have hin : ∀ gs, (st.head? = some gs ∨ st.getLast? = some gs) → (∀ f ∈ gs, OccursIn o.rxns f) →
        ∀ f ∈ gs, f.speciesSite ∈ allCols o.net := fun gs hgs hocc f hf =>
      (clean_formula h.parse (hocc f hf) (hcl.1.1 gs hgs f hf).1 (hcl.1.2 gs hgs f hf)
        (hcl.2 gs hgs f hf) (hpl gs hgs f hf) P C (coverage o.net total v)).1
    rw [sum_produced h.parse g4 g5 (hin is (Or.inl g4) o1) (hin fs (Or.inr g5) o2)]
    rcases lt_trichotomy (a - b) 0 with hs | hs | hs
    · have := c3.mp hs
      have hneg : (a - b) * (statePotential μ fs - statePotential μ is) < 0 :=
        mul_neg_of_neg_of_pos hs (sub_pos.mpr this)
      exact ⟨hneg.le, ⟨fun e => absurd e hneg.ne, fun e => absurd e hs.ne⟩⟩
    · rw [hs]; simp
    · have := c1.mp hs
      have hneg : (a - b) * (statePotential μ fs - statePotential μ is) < 0 :=
        mul_neg_of_pos_of_neg hs (sub_neg.mpr this)
      exact ⟨hneg.le, ⟨fun e => absurd e hneg.ne, fun e => absurd e hs.ne'⟩⟩

/-- Summed over all species, what the reactions produce times its chemical potential is never
positive, and zero only if every reaction stands still. Missing: as in `C85_direction_partial`. -/
theorem C85_dissipation_partial (o : MFOwner ℝ) (total P C : Str → ℝ) (h : Ready o total P C)
    (hc : ∀ states ∈ o.net.rxns, RateClean states)
    (hp : ∀ states ∈ o.net.rxns, PlainSites states) (v : Str → ℝ)
    (hpos : AllPositive o.net P C (coverage o.net total v))
    (E : Dict Str ℝ) (G : Str → ℝ) (hG : Extends G E) (ro : RateOwner) (hro : ro.rxns = o.rxns) (hT : 0 < ro.T)
    (r : Rel ℝ) (hr : relativeFromAbsolute (some E) o.rxns = .ok r) :
    ∃ kf kr net, rateConstants ro .TST ⟨some r.gaf, some r.gar, some r.dg⟩ = .ok (kf, kr) ∧
      getNetRates o (kf, kr) (o.net.ads.map v) = .ok net ∧ net.length = o.rxns.length ∧
      let μ := potential (kBeV * ro.T) G (activity o.net P C (coverage o.net total v))
      ((allCols o.net).map fun x => production o.net net x * μ x).sum ≤ 0 ∧
      (((allCols o.net).map fun x => production o.net net x * μ x).sum = 0 ↔ ∀ x ∈ net, x = 0) := by
  obtain ⟨kf, kr, hk, hfit⟩ := fit_TST E G hG ro hro hT r hr
  obtain ⟨net, g⟩ := dissipation_fit o total P C h hc hp v hpos G _ (mul_pos kBeV_pos hT) kf kr hfit
  exact ⟨kf, kr, net, hk, g⟩

/-- Regrouping of a sum over the adsorbates by site. -/
theorem sum_by_site {sites ads : List Str} (hs : sites.Nodup) (d μ : Str → ℝ) (σ : Str → Str)
    (hσ : ∀ a ∈ ads, OnSite a (σ a) ∧ σ a ∈ sites) :
    (sites.map fun s => ((ads.filter fun a => OnSite a s).map d).sum * μ s).sum
      = (ads.map fun a => d a * μ (σ a)).sum := by
  induction ads with
  | nil => rw [sum_map_zero] <;> simp
  | cons a ads ih =>
    obtain ⟨h1, h2⟩ := hσ a (by simp)
    rw [List.map_cons, List.sum_cons, ← ih fun b hb => hσ b (by simp [hb])]
    have hone : (sites.map fun s => if s = σ a then d a * μ (σ a) else 0).sum = d a * μ (σ a) := by
      clear ih hσ h1
      induction sites with
      | nil => simp at h2
      | cons x l ihl =>
        rw [List.nodup_cons] at hs
        rw [List.map_cons, List.sum_cons]
        by_cases e : x = σ a
        · rw [if_pos e, sum_map_zero]
          · ring
          · intro y hy
            rw [if_neg]
            rintro rfl
            exact hs.1 (e ▸ hy)
        · rw [if_neg e, ihl hs.2 (by
            rcases List.mem_cons.mp h2 with e' | e'
            · exact absurd e'.symm e
            · exact e')]
          ring
    rw [← hone, ← sum_map_add']
    congr 1
    apply List.map_congr_left
    intro s _
    have hiff : OnSite a s ↔ s = σ a := by
      unfold OnSite at h1 ⊢
      rw [h1]
      exact ⟨fun h => (Except.ok.inj h).symm, fun h => by rw [h]⟩
    by_cases e : s = σ a
    · rw [if_pos e, List.filter_cons_of_pos (by simpa using hiff.mpr e), List.map_cons, List.sum_cons, e]
      ring
    · rw [if_neg e, List.filter_cons_of_neg (by simpa using fun h => e (hiff.mp h))]
      ring

/-- The general form of `C85_free_energy_partial`. -/
theorem freeEnergy_fit (o : MFOwner ℝ) (total P C : Str → ℝ) (h : Ready o total P C)
    (hc : ∀ states ∈ o.net.rxns, RateClean states)
    (hp : ∀ states ∈ o.net.rxns, PlainSites states) (v : Str → ℝ)
    (hpos : AllPositive o.net P C (coverage o.net total v))
    (G : Str → ℝ) (kT : ℝ) (hkT : 0 < kT) (kf kr : List ℝ) (hfit : FitConstants o.rxns kT G kf kr)
    (hone : ∀ a ∈ o.net.ads, ∀ states ∈ o.net.rxns, OneSided a states)
    (hn : ∀ a ∈ o.net.ads, ∀ f, chemFormula a = .ok f → f.nsite = 1)
    (σ : Str → Str) (hσ : ∀ a ∈ o.net.ads, OnSite a (σ a)) :
    ∃ net derivs tofs, getNetRates o (kf, kr) (o.net.ads.map v) = .ok net ∧
      steadyStateFunction o (kf, kr) (o.net.ads.map v) = .ok derivs ∧ getTof o (kf, kr) (o.net.ads.map v) = .ok tofs ∧
      let μ := potential kT G (activity o.net P C (coverage o.net total v))
      let F := (List.zipWith (fun a d => d * (μ a - μ (σ a))) o.net.ads derivs).sum
        + (List.zipWith (fun g t => t * μ g) (o.net.gas ++ o.net.liq) tofs).sum
      F ≤ 0 ∧ (F = 0 ↔ ∀ x ∈ net, x = 0) := by
  obtain ⟨net, h2, h3, h4⟩ := dissipation_fit o total P C h hc hp v hpos G kT hkT kf kr hfit
  obtain ⟨κf, κr, hκf, hκr⟩ := hfit.own
  obtain ⟨net', e1, e2, e3⟩ := C26_derivatives_partial o total P C h hc v kf kr κf κr hκf hκr hone
  rw [h2] at e1; cases e1
  obtain ⟨net', derivs', e1, e4, e5⟩ := C27_sites_partial o total P C h hc v kf kr κf κr hκf hκr hone hn
  rw [h2] at e1; cases e1
  rw [e3] at e4; cases e4
  refine ⟨net, _, _, h2, e3, (C69_turnover o (kf, kr) _ net h.parse h2 h3).1, ?_⟩
  intro μ F
  have hF : F = ((allCols o.net).map fun x => production o.net net x * μ x).sum := by
    have hz : ∀ (f : Str → ℝ → ℝ) (l : List Str), List.zipWith f l (l.map (production o.net net))
        = l.map fun x => f x (production o.net net x) := by
      intro f l
      rw [List.zipWith_map_right, List.zipWith_self]
    have hfil : ∀ (s : Str) (l : List Str), (((l.zip (l.map (production o.net net))).filter fun x => OnSite x.1 s).map (·.2))
        = (l.filter fun a => OnSite a s).map (production o.net net) := by
      intro s l
      induction l with
      | nil => rfl
      | cons a l ih => by_cases ha : OnSite a s <;> simp [ha, ih]
    have hsite : (o.net.sites.map fun s => production o.net net s * μ s).sum
        = - (o.net.ads.map fun a => production o.net net a * μ (σ a)).sum := by
      rw [← sum_by_site (C08_lists_sorted _ _ h.parse).2.2 (production o.net net) μ σ ?_, ← sum_map_neg']
      · congr 1
        apply List.map_congr_left
        intro s hs
        have := e5 s hs
        rw [hfil] at this
        have : production o.net net s = - ((o.net.ads.filter fun a => OnSite a s).map (production o.net net)).sum := by
          linarith
        rw [this]
        ring
      · intro a ha
        refine ⟨hσ a ha, ?_⟩
        obtain ⟨s, hs, hon⟩ := ads_onSite h.parse ha
        have := hσ a ha
        unfold OnSite at this hon
        rw [hon] at this
        rw [← Except.ok.inj this]
        exact hs
    unfold allCols
    rw [show o.net.reaproCols = o.net.gas ++ o.net.liq from rfl]
    rw [List.map_append, List.sum_append, show o.net.siteCols = o.net.sites ++ o.net.ads from rfl, List.map_append,
      List.sum_append, hsite]
    dsimp only [F]
    rw [hz, hz, add_left_inj, neg_add_eq_sub, sub_eq_add_neg, ← sum_map_neg', ← sum_map_add']
    congr 1
    apply List.map_congr_left
    intro a _
    ring
  rw [hF]
  exact h4

/-- The time derivative of the free energy of the surface, taken from `steady_state_function` with
an adsorbate at potential `μ a` in place of a free site, plus that of the gases and liquids at the
turnover frequencies, is never positive, and zero only at equilibrium. Missing: moreover what C26
and C27 miss (species on both sides, adsorbates on several sites). -/
theorem C85_free_energy_partial (o : MFOwner ℝ) (total P C : Str → ℝ) (h : Ready o total P C)
    (hc : ∀ states ∈ o.net.rxns, RateClean states)
    (hp : ∀ states ∈ o.net.rxns, PlainSites states) (v : Str → ℝ)
    (hpos : AllPositive o.net P C (coverage o.net total v))
    (E : Dict Str ℝ) (G : Str → ℝ) (hG : Extends G E) (ro : RateOwner) (hro : ro.rxns = o.rxns) (hT : 0 < ro.T)
    (r : Rel ℝ) (hr : relativeFromAbsolute (some E) o.rxns = .ok r)
    (hone : ∀ a ∈ o.net.ads, ∀ states ∈ o.net.rxns, OneSided a states)
    (hn : ∀ a ∈ o.net.ads, ∀ f, chemFormula a = .ok f → f.nsite = 1)
    (σ : Str → Str) (hσ : ∀ a ∈ o.net.ads, OnSite a (σ a)) :
    ∃ k net derivs tofs, rateConstants ro .TST ⟨some r.gaf, some r.gar, some r.dg⟩ = .ok k ∧
      getNetRates o k (o.net.ads.map v) = .ok net ∧
      steadyStateFunction o k (o.net.ads.map v) = .ok derivs ∧ getTof o k (o.net.ads.map v) = .ok tofs ∧
      let μ := potential (kBeV * ro.T) G (activity o.net P C (coverage o.net total v))
      let F := (List.zipWith (fun a d => d * (μ a - μ (σ a))) o.net.ads derivs).sum
        + (List.zipWith (fun g t => t * μ g) (o.net.gas ++ o.net.liq) tofs).sum
      F ≤ 0 ∧ (F = 0 ↔ ∀ x ∈ net, x = 0) := by
  obtain ⟨kf, kr, hk, hfit⟩ := fit_TST E G hG ro hro hT r hr
  obtain ⟨net, derivs, tofs, g⟩ := freeEnergy_fit o total P C h hc hp v hpos G _ (mul_pos kBeV_pos hT) kf kr hfit hone hn σ hσ
  exact ⟨(kf, kr), net, derivs, tofs, hk, g⟩

/-- The general form of `C85_steady_partial`. -/
theorem steady_fit (o : MFOwner ℝ) (total P C : Str → ℝ) (h : Ready o total P C)
    (hc : ∀ states ∈ o.net.rxns, RateClean states)
    (hp : ∀ states ∈ o.net.rxns, PlainSites states) (v : Str → ℝ)
    (hpos : AllPositive o.net P C (coverage o.net total v))
    (G : Str → ℝ) (kT : ℝ) (hkT : 0 < kT) (kf kr : List ℝ) (hfit : FitConstants o.rxns kT G kf kr)
    (hone : ∀ a ∈ o.net.ads, ∀ states ∈ o.net.rxns, OneSided a states)
    (hn : ∀ a ∈ o.net.ads, ∀ f, chemFormula a = .ok f → f.nsite = 1) (m : Nat)
    (hst : steadyStateFunction o (kf, kr) (o.net.ads.map v) = .ok (List.replicate m 0)) :
    ∃ net tofs, getNetRates o (kf, kr) (o.net.ads.map v) = .ok net ∧ getTof o (kf, kr) (o.net.ads.map v) = .ok tofs ∧
      let μ := potential kT G (activity o.net P C (coverage o.net total v))
      let F := (List.zipWith (fun g t => t * μ g) (o.net.gas ++ o.net.liq) tofs).sum
      F ≤ 0 ∧ (F = 0 ↔ ∀ x ∈ net, x = 0) := by
  have hσ : ∃ σ : Str → Str, ∀ a ∈ o.net.ads, OnSite a (σ a) := by
    refine ⟨fun a => match siteNameOf a with | .ok s => s | .error _ => [], ?_⟩
    intro a ha
    obtain ⟨s, -, hon⟩ := ads_onSite h.parse ha
    unfold OnSite at hon ⊢
    dsimp only
    rw [hon]
  obtain ⟨σ, hσ⟩ := hσ
  obtain ⟨net, derivs, tofs, h2, h3, h4, h5⟩ :=
    freeEnergy_fit o total P C h hc hp v hpos G kT hkT kf kr hfit hone hn σ hσ
  rw [hst] at h3; cases h3
  refine ⟨net, tofs, h2, h4, ?_⟩
  intro μ F
  have hz : ∀ (l : List Str) (m : Nat), (List.zipWith (fun a d => d * (μ a - μ (σ a))) l (List.replicate m 0)).sum = 0 := by
    intro l
    induction l with
    | nil => simp
    | cons a l ih =>
      intro m
      cases m with
      | zero => simp
      | succ m => rw [List.replicate_succ, List.zipWith_cons_cons, List.sum_cons, ih]; ring
  have := h5
  dsimp only at this
  rw [hz, zero_add] at this
  exact this

/-- At a steady state the turnover itself runs downhill: the gases and liquids consumed have at
least the chemical potential of those produced, and exactly the same only at equilibrium. -/
theorem C85_steady_partial (o : MFOwner ℝ) (total P C : Str → ℝ) (h : Ready o total P C)
    (hc : ∀ states ∈ o.net.rxns, RateClean states)
    (hp : ∀ states ∈ o.net.rxns, PlainSites states) (v : Str → ℝ)
    (hpos : AllPositive o.net P C (coverage o.net total v))
    (E : Dict Str ℝ) (G : Str → ℝ) (hG : Extends G E) (ro : RateOwner) (hro : ro.rxns = o.rxns) (hT : 0 < ro.T)
    (r : Rel ℝ) (hr : relativeFromAbsolute (some E) o.rxns = .ok r)
    (hone : ∀ a ∈ o.net.ads, ∀ states ∈ o.net.rxns, OneSided a states)
    (hn : ∀ a ∈ o.net.ads, ∀ f, chemFormula a = .ok f → f.nsite = 1) (k : List ℝ × List ℝ)
    (hk : rateConstants ro .TST ⟨some r.gaf, some r.gar, some r.dg⟩ = .ok k) (m : Nat)
    (hst : steadyStateFunction o k (o.net.ads.map v) = .ok (List.replicate m 0)) :
    ∃ net tofs, getNetRates o k (o.net.ads.map v) = .ok net ∧ getTof o k (o.net.ads.map v) = .ok tofs ∧
      let μ := potential (kBeV * ro.T) G (activity o.net P C (coverage o.net total v))
      let F := (List.zipWith (fun g t => t * μ g) (o.net.gas ++ o.net.liq) tofs).sum
      F ≤ 0 ∧ (F = 0 ↔ ∀ x ∈ net, x = 0) := by
  obtain ⟨kf, kr, hk', hfit⟩ := fit_TST E G hG ro hro hT r hr
  rw [hk] at hk'
  rw [Except.ok.inj hk'] at hst ⊢
  exact steady_fit o total P C h hc hp v hpos G _ (mul_pos kBeV_pos hT) kf kr hfit hone hn m hst

/-! ### the example: CO oxidation, all pressures 1, one quarter of the sites covered by each -/

noncomputable def exDriveMF : MFOwner ℝ :=
  ⟨exRxns, exNet, [(str! "*_s", 1)], [(str! "CO_g", 1), (str! "O2_g", 1), (str! "CO2_g", 1)], []⟩

theorem exDrive_ready : Ready exDriveMF (fun _ => 1) (fun _ => 1) (fun _ => 1) := by
  have e1 : exDriveMF.net.sites = [str! "*_s"] := by decide
  have e2 : exDriveMF.net.gas = [str! "CO2_g", str! "CO_g", str! "O2_g"] := by decide
  have e3 : exDriveMF.net.liq = [] := by decide
  refine ⟨exNet_ok, ?_, ?_, ?_⟩
  · rw [e1]; simp only [List.mem_singleton, forall_eq]; rfl
  · rw [e2]; simp only [List.mem_cons, List.not_mem_nil, or_false, forall_eq_or_imp, forall_eq]
    exact ⟨rfl, rfl, rfl⟩
  · rw [e3]; simp

/-- A check of `PlainSites` by computation. -/
def plainSitesB (states : List (List Formula)) : Bool :=
  (states.head?.toList ++ states.getLast?.toList).all fun fs => fs.all fun f => decide ('*' ∉ f.site)

theorem plainSites_of {states : List (List Formula)} (h : plainSitesB states = true) : PlainSites states := by
  unfold plainSitesB at h
  simp only [List.all_eq_true, List.mem_append, Option.mem_toList, decide_eq_true_eq] at h
  exact fun fs hfs f hf => h fs hfs f hf

theorem exDrive_positive : AllPositive exDriveMF.net (fun _ => 1) (fun _ => 1)
    (coverage exDriveMF.net (fun _ => 1) fun _ => 1 / 4) := by
  have e1 : allCols exDriveMF.net = [str! "*_s", str! "CO_s", str! "O_s", str! "CO2_g", str! "CO_g", str! "O2_g"] := by
    decide
  have e2 : exDriveMF.net.ads = [str! "CO_s", str! "O_s"] := by decide
  have e3 : exDriveMF.net.gas = [str! "CO2_g", str! "CO_g", str! "O2_g"] := by decide
  have e4 : exDriveMF.net.liq = [] := by decide
  have f1 : [str! "CO_s", str! "O_s"].filter (fun a => decide (OnSite a (str! "*_s"))) = [str! "CO_s", str! "O_s"] := by
    decide
  unfold AllPositive
  rw [e1]
  simp only [List.mem_cons, List.not_mem_nil, or_false, forall_eq_or_imp, forall_eq]
  unfold activity coverage
  rw [e2, e3, e4]
  refine ⟨?_, ?_, ?_, ?_, ?_, ?_⟩
  · rw [if_neg (by decide), if_neg (by decide), if_neg (by decide), f1]; norm_num
  · rw [if_neg (by decide), if_neg (by decide), if_pos (by decide)]; norm_num
  · rw [if_neg (by decide), if_neg (by decide), if_pos (by decide)]; norm_num
  · rw [if_pos (by decide)]; norm_num
  · rw [if_pos (by decide)]; norm_num
  · rw [if_pos (by decide)]; norm_num

noncomputable def exDriveE : Dict Str ℝ :=
  [(str! "CO_g", 0), (str! "O2_g", 0), (str! "CO2_g", -3), (str! "*_s", 0), (str! "CO_s", -1), (str! "O_s", -1),
    (str! "CO-O_2s", -1), (str! "O-O_2s", 1)]

example : ∃ r G k, Extends G exDriveE ∧ relativeFromAbsolute (some exDriveE) exDriveMF.rxns = .ok r ∧
    rateConstants ⟨exRxns, 450, [], 0, 0, false⟩ .TST ⟨some r.gaf, some r.gar, some r.dg⟩ = .ok k ∧
    ∃ net derivs tofs, getNetRates exDriveMF k (exDriveMF.net.ads.map fun _ => 1 / 4) = .ok net ∧
      steadyStateFunction exDriveMF k (exDriveMF.net.ads.map fun _ => 1 / 4) = .ok derivs ∧
      getTof exDriveMF k (exDriveMF.net.ads.map fun _ => 1 / 4) = .ok tofs := by
  obtain ⟨r, hr⟩ := (C12_complete_tables exDriveE exDriveMF.rxns exDriveMF.net exNet_ok).1 (by
    have hk : keys exDriveE = [str! "CO_g", str! "O2_g", str! "CO2_g", str! "*_s", str! "CO_s", str! "O_s",
      str! "CO-O_2s", str! "O-O_2s"] := rfl
    rw [hk]
    decide)
  obtain ⟨G, hG⟩ := exists_extends exDriveE
  obtain ⟨k, net, derivs, tofs, h1, h2, h3, h4, -⟩ := C85_free_energy_partial exDriveMF _ _ _ exDrive_ready
    (fun st hst => rateClean_of ((by decide : ∀ st ∈ exNet.rxns, rateCleanB st = true) st hst))
    (fun st hst => plainSites_of ((by decide : ∀ st ∈ exNet.rxns, plainSitesB st = true) st hst))
    (fun _ => 1 / 4) exDrive_positive exDriveE G hG ⟨exRxns, 450, [], 0, 0, false⟩ rfl (by norm_num) r hr
    (fun a ha st hst => oneSided_of
      ((by decide : ∀ a ∈ exNet.ads, ∀ st ∈ exNet.rxns, oneSidedB a st = true) a ha st hst))
    (by
      have : ∀ a ∈ exNet.ads, (match chemFormula a with | .ok f => decide (f.nsite = 1) | .error _ => true) = true := by
        decide
      intro a ha f hf
      have := this a ha
      rw [hf] at this
      simpa using this)
    (fun _ => str! "*_s") (by decide)
  exact ⟨r, G, k, hG, hr, h1, net, derivs, tofs, h2, h3, h4⟩

/-- On a site whose name contains a star the energy of the adsorbate is not used: tables that
differ in it give the same reaction energies, so the direction cannot follow the potential. -/
theorem C85_starred_refuted (x y : ℝ) :
    singleRelative [(str! "CO_g", 0), (str! "*_s*", 0), (str! "CO_s*", x)] (str! "CO_g + *_s* -> CO_s*")
      = singleRelative [(str! "CO_g", 0), (str! "*_s*", 0), (str! "CO_s*", y)] (str! "CO_g + *_s* -> CO_s*") ∧
    ∃ w, singleRelative [(str! "CO_g", 0), (str! "*_s*", 0), (str! "CO_s*", x)] (str! "CO_g + *_s* -> CO_s*") = .ok w ∧
      w.dg = 0 := by
  refine ⟨rfl, _, rfl, ?_⟩
  norm_num

end Verif
