import Verif.Props.Fills
import Verif.Props.SteadyExists
import Verif.Props.Absent
import Mathlib.Analysis.SpecialFunctions.ExpDeriv
import Mathlib.Analysis.Complex.ExponentialBounds
/-
The restrictions of C11, C18, C93, C122 and C124 are needed: networks that the code accepts outside of them.
-/
namespace Verif
open Dict

/-! ## C11 -/

/-- **C11** An adsorbate written twice on one side of a reaction: coverages with zero derivatives at which oxygen is lost. -/
theorem C11_repeated_formula_refuted :
    let rxns := [str! "O2_g + 2*_s -> O_s + O_s", str! "2O_s -> O2_g + 2*_s"]
    let o : MFOwner ℚ := ⟨rxns, netOf rxns, [(str! "*_s", 1)], [(str! "O2_g", 1)], []⟩
    Ready o (fun _ => 1) (fun _ => 1) (fun _ => 0) ∧ o.net.ads = [str! "O_s"] ∧ o.net.gas ++ o.net.liq = [str! "O2_g"] ∧
      steadyStateFunction o ([2, 1], [0, 0]) [1 / 2] = .ok [0] ∧ getTof o ([2, 1], [0, 0]) [1 / 2] = .ok [-1 / 4] ∧
      (List.zipWith (fun t x => t * (nameCount 'O' x : ℚ)) [-1 / 4] [str! "O2_g"]).sum ≠ 0 := by
  refine ⟨⟨by decide, by decide +kernel, by decide +kernel, by decide +kernel⟩, by decide, by decide, by decide +kernel, by decide +kernel, by decide +kernel⟩

/-! ## C18 -/

/-- **C18** A pair of free sites in an end state is accepted and has an energy, but rates cannot be computed, at whatever coverages. -/
theorem C18_pair_of_sites_refuted (k : List ℝ × List ℝ) (hk : k.1.length = 1) (θ g s a : ℝ) :
    let rxns := [str! "O2_g + *_2s -> 2O_s"]
    let o : MFOwner ℝ := ⟨rxns, netOf rxns, [(str! "*_s", 1)], [(str! "O2_g", 1)], []⟩
    Ready o (fun _ => 1) (fun _ => 1) (fun _ => 0) ∧ o.net.ads = [str! "O_s"] ∧
      (∃ r, relativeFromAbsolute (some [(str! "O2_g", g), (str! "*_s", s), (str! "*_2s", 2 * s), (str! "O_s", a)]) rxns = .ok r) ∧
      getRates o k [θ] = .error .KeyError := by
  intro rxns o
  have hads : (netOf rxns).ads = [str! "O_s"] := by decide
  have hsites : (netOf rxns).sites = [str! "*_s"] := by decide
  have hgas : (netOf rxns).gas = [str! "O2_g"] := by decide
  have hliq : (netOf rxns).liq = [] := by decide
  refine ⟨⟨?_, ?_, ?_, ?_⟩, hads, ?_, ?_⟩
  · have : parseNetwork rxns = .ok (netOf rxns) := by decide
    exact this
  · intro s hs
    rw [show o.net.sites = _ from hsites, List.mem_singleton] at hs
    subst hs
    rfl
  · intro s hs
    rw [show o.net.gas = _ from hgas, List.mem_singleton] at hs
    subst hs
    rfl
  · intro s hs
    rw [show o.net.liq = _ from hliq] at hs
    cases hs
  · exact ⟨_, rfl⟩
  · have h1 : classifyAds (netOf rxns) = .ok [(str! "*_s", [str! "O_s"])] := by decide
    have hc : cvgTuple2Dict o [θ] = .ok [(str! "O_s", θ), (str! "*_s", 1 - (θ + 0))] := by
      unfold cvgTuple2Dict
      rw [show o.net = netOf rxns from rfl, h1, hads, hsites]
      rfl
    have hg : getData o = .ok ([(str! "O2_g", 1)], []) := by
      unfold getData
      rw [show o.net = netOf rxns from rfl, hgas, hliq]
      rfl
    have h5 : o.rxns.mapM (rateTerms o) = .ok [(⟨1, true, 0, [⟨.p, str! "O2_g", 1⟩, ⟨.theta, str! "*_2s", 1⟩]⟩, ⟨1, false, 0, [⟨.theta, str! "O_s", 2⟩]⟩)] := by
      have e : rateTerms o = rateTerms (⟨rxns, netOf rxns, [], [], []⟩ : MFOwner ℚ) := rfl
      rw [e]
      show rxns.mapM _ = _
      decide +kernel
    unfold getRates mkEnv
    rw [hc, hg, h5]
    obtain ⟨kf, kr⟩ := k
    match kf, hk with
    | [x], _ => rfl

/-! ## C93, C122, C124 -/

/-- Carbon monoxide adsorbs by way of its other orientation, which is an adsorbate of its own. -/
def viaOC : List Str := [str! "CO_g + *_s <-> OC_s -> CO_s", str! "CO_s -> CO_g + *_s", str! "OC_s -> CO_g + *_s"]

/-- The model at unit pressure. -/
noncomputable def viaOCModel : MFOwner ℝ := ⟨viaOC, netOf viaOC, [(str! "*_s", 1)], [(str! "CO_g", 1)], []⟩

theorem viaOC_ads : (netOf viaOC).ads = [str! "CO_s", str! "OC_s"] := by decide
theorem viaOC_sites : (netOf viaOC).sites = [str! "*_s"] := by decide
theorem viaOC_gas : (netOf viaOC).gas = [str! "CO_g"] := by decide
theorem viaOC_liq : (netOf viaOC).liq = [] := by decide

theorem viaOC_ready : Ready viaOCModel (fun _ => 1) (fun _ => 1) (fun _ => 0) where
  parse := by
    have : parseNetwork viaOC = .ok (netOf viaOC) := by decide
    exact this
  totals := by
    intro s hs
    rw [show viaOCModel.net.sites = _ from viaOC_sites, List.mem_singleton] at hs
    subst hs
    rfl
  pressures := by
    intro s hs
    rw [show viaOCModel.net.gas = _ from viaOC_gas, List.mem_singleton] at hs
    subst hs
    rfl
  concs := by
    intro s hs
    rw [show viaOCModel.net.liq = _ from viaOC_liq] at hs
    cases hs

theorem viaOC_unblocked : Unblocked viaOCModel.net :=
  C123_adsorption viaOC (netOf viaOC) (by decide) fun a ha => by
    have : ∀ a ∈ (netOf viaOC).ads, (str! "*_s") ∈ (netOf viaOC).sites ∧ OnSite a (str! "*_s") ∧ directB (netOf viaOC) a (str! "*_s") = true := by decide
    exact ⟨_, (this a ha).1, (this a ha).2.1, direct_of (this a ha).2.2⟩

/-- Polynomials of the two adsorbates. -/
def viaOCPolys : List Poly :=
  let p : List Factor := [⟨.p, str! "CO_g", 1⟩, ⟨.theta, str! "*_s", 1⟩]
  [[(true, ⟨1, true, 0, p⟩), (false, ⟨1, false, 0, [⟨.theta, str! "CO_s", 1⟩]⟩), (true, ⟨1, false, 1, p⟩), (false, ⟨1, true, 1, [⟨.theta, str! "CO_s", 1⟩]⟩)],
   [(true, ⟨1, true, 0, p⟩), (false, ⟨1, false, 0, [⟨.theta, str! "CO_s", 1⟩]⟩), (true, ⟨1, false, 2, p⟩), (false, ⟨1, true, 2, [⟨.theta, str! "OC_s", 1⟩]⟩)]]

theorem viaOC_steady (a b : ℝ) : steadyStateFunction viaOCModel ([1, 1, 3], [1, 4, 1]) [a, b] = .ok [5 - 7 * a - 5 * b, 2 - 3 * a - 5 * b] := by
  have h1 : classifyAds (netOf viaOC) = .ok [(str! "*_s", [str! "CO_s", str! "OC_s"])] := by decide
  have hc : cvgTuple2Dict viaOCModel [a, b] = .ok [(str! "CO_s", a), (str! "OC_s", b), (str! "*_s", 1 - (a + (b + 0)))] := by
    unfold cvgTuple2Dict
    rw [show viaOCModel.net = netOf viaOC from rfl, h1, viaOC_ads, viaOC_sites]
    rfl
  have h5 : viaOCModel.net.ads.mapM (adsorbateDtheta viaOCModel) = .ok viaOCPolys := by
    have e : adsorbateDtheta viaOCModel = adsorbateDtheta (⟨viaOC, netOf viaOC, [], [], []⟩ : MFOwner ℚ) := rfl
    rw [e]
    show (netOf viaOC).ads.mapM _ = _
    decide +kernel
  have hg : getData viaOCModel = .ok ([(str! "CO_g", 1)], []) := by
    unfold getData
    rw [show viaOCModel.net = netOf viaOC from rfl, viaOC_gas, viaOC_liq]
    rfl
  unfold steadyStateFunction mkEnv
  rw [hc, hg, h5]
  have e : ∀ env : Env ℝ, env = ⟨[1, 1, 3], [1, 4, 1], [(str! "CO_s", a), (str! "OC_s", b), (str! "*_s", 1 - (a + (b + 0)))], [(str! "CO_g", 1)], []⟩ →
      viaOCPolys.mapM (evalPoly env) = .ok [[((1 : ℕ) : ℝ) * 1 * [1 ^ 1, (1 - (a + (b + 0))) ^ 1].prod, -(((1 : ℕ) : ℝ) * 1 * [a ^ 1].prod),
        ((1 : ℕ) : ℝ) * 4 * [1 ^ 1, (1 - (a + (b + 0))) ^ 1].prod, -(((1 : ℕ) : ℝ) * 1 * [a ^ 1].prod)].sum,
        [((1 : ℕ) : ℝ) * 1 * [1 ^ 1, (1 - (a + (b + 0))) ^ 1].prod, -(((1 : ℕ) : ℝ) * 1 * [a ^ 1].prod),
        ((1 : ℕ) : ℝ) * 1 * [1 ^ 1, (1 - (a + (b + 0))) ^ 1].prod, -(((1 : ℕ) : ℝ) * 3 * [b ^ 1].prod)].sum] := by
    rintro env rfl
    rfl
  refine (e _ rfl).trans ?_
  congr 1
  simp only [List.sum_cons, List.sum_nil, List.prod_cons, List.prod_nil, List.cons.injEq, and_true]
  push_cast
  constructor <;> ring

/-- Coverages of carbon monoxide and of its other orientation. -/
def inCO (a b : ℝ) (x : Str) : ℝ := if x = str! "CO_s" then a else b

theorem viaOC_map (v : Str → ℝ) : viaOCModel.net.ads.map v = [v (str! "CO_s"), v (str! "OC_s")] := by
  rw [show viaOCModel.net.ads = _ from viaOC_ads]
  rfl

theorem viaOC_coverage (v : Str → ℝ) : coverage viaOCModel.net (fun _ => 1) v (str! "CO_s") = v (str! "CO_s") ∧
    coverage viaOCModel.net (fun _ => 1) v (str! "OC_s") = v (str! "OC_s") ∧
    coverage viaOCModel.net (fun _ => 1) v (str! "*_s") = 1 - (v (str! "CO_s") + v (str! "OC_s")) := by
  have h : viaOCModel.net.ads = [str! "CO_s", str! "OC_s"] := viaOC_ads
  unfold coverage
  rw [h]
  refine ⟨rfl, rfl, ?_⟩
  rw [if_neg (by decide), show List.filter (fun a => decide (OnSite a (str! "*_s"))) [str! "CO_s", str! "OC_s"] = [str! "CO_s", str! "OC_s"] by decide]
  simp

theorem viaOC_cols : viaOCModel.net.siteCols = [str! "*_s", str! "CO_s", str! "OC_s"] := by
  show (netOf viaOC).siteCols = _
  decide

theorem viaOC_physical (v : Str → ℝ) : PhysicalState viaOCModel (fun _ => 1) (fun _ => 1) (fun _ => 0) v [1, 1, 3] [1, 4, 1] ↔
    0 ≤ v (str! "CO_s") ∧ 0 ≤ v (str! "OC_s") ∧ v (str! "CO_s") + v (str! "OC_s") ≤ 1 := by
  obtain ⟨h1, h2, h3⟩ := viaOC_coverage v
  constructor
  · intro h
    have a1 := h.theta (str! "CO_s") (by rw [viaOC_cols]; simp)
    have a2 := h.theta (str! "OC_s") (by rw [viaOC_cols]; simp)
    have a3 := h.theta (str! "*_s") (by rw [viaOC_cols]; simp)
    rw [h1] at a1
    rw [h2] at a2
    rw [h3] at a3
    exact ⟨a1, a2, by linarith⟩
  · rintro ⟨a1, a2, a3⟩
    refine ⟨?_, ?_, fun _ _ => by norm_num, fun _ _ => le_refl _, ?_⟩
    · intro k hk
      fin_cases hk <;> norm_num
    · intro k hk
      fin_cases hk <;> norm_num
    · intro x hx
      rw [viaOC_cols] at hx
      simp only [List.mem_cons, List.not_mem_nil, or_false] at hx
      rcases hx with rfl | rfl | rfl
      · rw [h3]; linarith
      · rw [h1]; exact a1
      · rw [h2]; exact a2

/-- **C122** Intermediate states with adsorbates: a network with positive constants, pressures and totals whose equations have no physical solution. -/
theorem C122_intermediate_refuted :
    Ready viaOCModel (fun _ => 1) (fun _ => 1) (fun _ => 0) ∧
    PhysicalState viaOCModel (fun _ => 1) (fun _ => 1) (fun _ => 0) (fun _ => 0) [1, 1, 3] [1, 4, 1] ∧
    ¬ ∃ v : Str → ℝ, PhysicalState viaOCModel (fun _ => 1) (fun _ => 1) (fun _ => 0) v [1, 1, 3] [1, 4, 1] ∧
      steadyStateFunction viaOCModel ([1, 1, 3], [1, 4, 1]) (viaOCModel.net.ads.map v) = .ok [0, 0] := by
  refine ⟨viaOC_ready, (viaOC_physical _).mpr (by norm_num), ?_⟩
  rintro ⟨v, hph, hs⟩
  obtain ⟨a1, a2, a3⟩ := (viaOC_physical v).mp hph
  rw [viaOC_map, viaOC_steady] at hs
  have := Except.ok.inj hs
  simp only [List.cons.injEq, and_true] at this
  linarith [this.1, this.2]

/-- The solution of the equations from one half and one fifth. -/
noncomputable def viaOCFlow (t : ℝ) : Str → ℝ := inCO (3 / 4 - 1 / 4 * Real.exp (-2 * t)) (-1 / 20 + 1 / 4 * Real.exp (-2 * t))

theorem viaOC_follows (T : ℝ) : Follows viaOCModel ([1, 1, 3], [1, 4, 1]) T viaOCFlow := by
  have hco : ∀ t, viaOCFlow t (str! "CO_s") = 3 / 4 - 1 / 4 * Real.exp (-2 * t) := fun _ => rfl
  have hoc : ∀ t, viaOCFlow t (str! "OC_s") = -1 / 20 + 1 / 4 * Real.exp (-2 * t) := fun _ => rfl
  have hexp : ∀ t, HasDerivAt (fun τ : ℝ => Real.exp (-2 * τ)) (-2 * Real.exp (-2 * t)) t := fun t => by
    have := ((hasDerivAt_id t).const_mul (-2)).exp
    simpa [mul_comm] using this
  have d1 : ∀ t, HasDerivAt (fun τ => viaOCFlow τ (str! "CO_s")) (1 / 2 * Real.exp (-2 * t)) t := fun t => by
    rw [show (fun τ => viaOCFlow τ (str! "CO_s")) = fun τ => 3 / 4 - 1 / 4 * Real.exp (-2 * τ) from funext hco]
    have := ((hexp t).const_mul (1 / 4)).const_sub (3 / 4)
    exact this.congr_deriv (by ring)
  have d2 : ∀ t, HasDerivAt (fun τ => viaOCFlow τ (str! "OC_s")) (-(1 / 2) * Real.exp (-2 * t)) t := fun t => by
    rw [show (fun τ => viaOCFlow τ (str! "OC_s")) = fun τ => -1 / 20 + 1 / 4 * Real.exp (-2 * τ) from funext hoc]
    have := ((hexp t).const_mul (1 / 4)).const_add (-1 / 20)
    exact this.congr_deriv (by ring)
  refine ⟨?_, ?_⟩
  · intro a ha
    rw [show viaOCModel.net.ads = _ from viaOC_ads] at ha
    simp only [List.mem_cons, List.not_mem_nil, or_false] at ha
    rcases ha with rfl | rfl
    · exact fun t _ => (d1 t).continuousAt.continuousWithinAt
    · exact fun t _ => (d2 t).continuousAt.continuousWithinAt
  · intro t _
    refine ⟨_, by rw [viaOC_map, viaOC_steady], ?_⟩
    intro p hp
    rw [show viaOCModel.net.ads = _ from viaOC_ads, hco, hoc] at hp
    simp only [List.zip_cons_cons, List.zip_nil_right, List.mem_cons, List.not_mem_nil, or_false] at hp
    rcases hp with rfl | rfl
    · convert d1 t using 1
      ring
    · convert d2 t using 1
      ring

/-- **C93** In the same network a solution that begins with everything present does not stay physical. -/
theorem C93_intermediate_refuted :
    Ready viaOCModel (fun _ => 1) (fun _ => 1) (fun _ => 0) ∧ (∀ T, Follows viaOCModel ([1, 1, 3], [1, 4, 1]) T viaOCFlow) ∧
    PhysicalState viaOCModel (fun _ => 1) (fun _ => 1) (fun _ => 0) (viaOCFlow 0) [1, 1, 3] [1, 4, 1] ∧
    (∀ x ∈ viaOCModel.net.siteCols, 0 < coverage viaOCModel.net (fun _ => 1) (viaOCFlow 0) x) ∧
    (str! "OC_s") ∈ viaOCModel.net.ads ∧ ∀ t, 1 ≤ t → viaOCFlow t (str! "OC_s") < 0 := by
  have hco : viaOCFlow 0 (str! "CO_s") = 1 / 2 := by
    show 3 / 4 - 1 / 4 * Real.exp (-2 * 0) = 1 / 2
    norm_num
  have hoc : viaOCFlow 0 (str! "OC_s") = 1 / 5 := by
    show -1 / 20 + 1 / 4 * Real.exp (-2 * 0) = 1 / 5
    norm_num
  refine ⟨viaOC_ready, viaOC_follows, (viaOC_physical _).mpr (by rw [hco, hoc]; norm_num), ?_, ?_, ?_⟩
  · obtain ⟨h1, h2, h3⟩ := viaOC_coverage (viaOCFlow 0)
    intro x hx
    rw [viaOC_cols] at hx
    simp only [List.mem_cons, List.not_mem_nil, or_false] at hx
    rcases hx with rfl | rfl | rfl
    · rw [h3, hco, hoc]; norm_num
    · rw [h1, hco]; norm_num
    · rw [h2, hoc]; norm_num
  · show _ ∈ (netOf viaOC).ads
    rw [viaOC_ads]
    simp
  · intro t ht
    show -1 / 20 + 1 / 4 * Real.exp (-2 * t) < 0
    have h1 : Real.exp (-2 * t) ≤ Real.exp (-2) := Real.exp_le_exp.mpr (by linarith)
    have h2 : Real.exp (-2) < 1 / 5 := by
      rw [Real.exp_neg, inv_eq_one_div]
      apply one_div_lt_one_div_of_lt (by norm_num)
      have := Real.exp_one_gt_d9
      have h3 : Real.exp 2 = Real.exp 1 * Real.exp 1 := by rw [← Real.exp_add]; norm_num
      rw [h3]
      nlinarith
    linarith

/-- **C124** It is unblocked, all constants, pressures and totals are positive, and still an adsorbate does not stay present. -/
theorem C124_intermediate_refuted :
    Unblocked viaOCModel.net ∧ (∀ k ∈ [(1 : ℝ), 1, 3], 0 < k) ∧ (∀ k ∈ [(1 : ℝ), 4, 1], 0 < k) ∧
    Follows viaOCModel ([1, 1, 3], [1, 4, 1]) 1 viaOCFlow ∧
    (∀ x ∈ viaOCModel.net.siteCols, 0 ≤ coverage viaOCModel.net (fun _ => 1) (viaOCFlow 0) x) ∧
    ∃ x ∈ viaOCModel.net.siteCols, ¬ 0 < coverage viaOCModel.net (fun _ => 1) (viaOCFlow 1) x := by
  obtain ⟨-, h1, -, h2, h3, h4⟩ := C93_intermediate_refuted
  refine ⟨viaOC_unblocked, ?_, ?_, h1 1, fun x hx => (h2 x hx).le, str! "OC_s", ?_, ?_⟩
  · intro k hk
    fin_cases hk <;> norm_num
  · intro k hk
    fin_cases hk <;> norm_num
  · rw [viaOC_cols]
    simp
  · rw [(viaOC_coverage (viaOCFlow 1)).2.1]
    exact not_lt.mpr (h4 1 (le_refl 1)).le

end Verif
