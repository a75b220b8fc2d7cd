import Verif.Props.DrivingForce
import Verif.Props.Run
import Verif.Props.Exact6
import Verif.Props.Invariance
/-
Property C119: the reversibilities a run reports, multiplied along a way from gases to gases, depend on
the gases and liquids only. And the elements in the turnover frequencies of a run (C11, C72).
-/
namespace Verif
open Dict

/-! ### specification -/

/-- Free energy of what the reactions make of gases and liquids together, each reaction taken `w` times:
energies and `k T` times the logarithms of pressures and concentrations. -/
noncomputable def gasFreeEnergy (n : Network) (kT : ℝ) (G P C : Str → ℝ) (w : List ℝ) : ℝ :=
  (n.gas.map fun x => production n w x * (G x + kT * Real.log (P x))).sum +
    (n.liq.map fun x => production n w x * (G x + kT * Real.log (C x))).sum

/-- Each reaction taken `w` times, nothing on the surface is left over or used up. -/
def ClosedOnSurface (n : Network) (w : List ℝ) : Prop := ∀ x ∈ n.sites ++ n.ads, production n w x = 0

/-- The logarithm of the product of the reversibilities, each taken `w` times. -/
noncomputable def logProduct (w v : List ℝ) : ℝ := (List.zipWith (fun w z => w * Real.log z) w v).sum

/-! ### helpers -/

theorem gasFreeEnergy_eq {rxns : List Str} {n : Network} (h : parseNetwork rxns = .ok n) (kT : ℝ) (G P C θ : Str → ℝ) (w : List ℝ)
    (hw : ClosedOnSurface n w) :
    ((allCols n).map fun x => production n w x * potential kT G (activity n P C θ) x).sum = gasFreeEnergy n kT G P C w := by
  have h0 : (n.siteCols.map fun x => production n w x * potential kT G (activity n P C θ) x).sum = 0 := by
    apply sum_map_zero
    intro x hx
    rw [hw x hx, zero_mul]
  have hnd := reaproCols_nodup h
  unfold Network.reaproCols at hnd
  rw [List.nodup_append] at hnd
  unfold allCols gasFreeEnergy
  rw [List.map_append, List.sum_append, h0, zero_add, show n.reaproCols = n.gas ++ n.liq from rfl, List.map_append, List.sum_append]
  congr 2
  · apply List.map_congr_left
    intro x hx
    unfold potential activity
    rw [if_pos hx]
  · apply List.map_congr_left
    intro x hx
    unfold potential activity
    rw [if_neg (fun hg => hnd.2.2 x hg x hx rfl), if_pos hx]

theorem sum_zip_scaled {α : Type} (f : α → ℝ → ℝ) (g : ℝ → ℝ → ℝ) (c : ℝ) : ∀ (l : List α) (w z : List ℝ), l.length = w.length → z.length = w.length →
    (∀ i (h1 : i < l.length) (h2 : i < w.length) (h3 : i < z.length), f l[i] w[i] = g w[i] z[i] * c) →
    (List.zipWith f l w).sum = (List.zipWith g w z).sum * c
  | [], [], [], _, _, _ => by simp
  | a :: l, x :: w, y :: z, h1, h2, h => by
    have h0 := h 0 (by simp) (by simp) (by simp)
    have ih := sum_zip_scaled f g c l w z (by simpa using h1) (by simpa using h2) fun i a b c => h (i + 1) (by simpa using a) (by simpa using b) (by simpa using c)
    simp only [List.getElem_cons_zero] at h0
    simp only [List.zipWith_cons_cons, List.sum_cons, ih, h0]
    ring
  | [], _ :: _, _, h, _, _ => by simp at h
  | _ :: _, [], _, h, _, _ => by simp at h
  | _, [], _ :: _, _, h, _ => by simp at h
  | _, _ :: _, [], _, h, _ => by simp at h

/-- For constants that fit energies: the logarithms of the ratios, weighted. -/
theorem logProduct_fit (o : MFOwner ℝ) (total P C : Str → ℝ) (h : Ready o total P C)
    (hc : ∀ states ∈ o.net.rxns, RateClean states) (hp : ∀ states ∈ o.net.rxns, PlainSites states) (v : Str → ℝ)
    (hpos : AllPositive o.net P C (coverage o.net total v))
    (G : Str → ℝ) (kT : ℝ) (hkT : 0 < kT) (kf kr : List ℝ) (hfit : FitConstants o.rxns kT G kf kr)
    (w : List ℝ) (hw : w.length = o.rxns.length) (hs : ClosedOnSurface o.net w) :
    ∃ rfs rrs, getRates o (kf, kr) (o.net.ads.map v) = .ok (rfs, rrs) ∧ rfs.length = o.rxns.length ∧ rrs.length = o.rxns.length ∧
      (∀ z ∈ List.zipWith (fun f r => r / f) rfs rrs, 0 < z) ∧
      logProduct w (List.zipWith (fun f r => r / f) rfs rrs) = gasFreeEnergy o.net kT G P C w / kT := by
  obtain ⟨rfs, rrs, h2, h3, h4, h5⟩ := direction_fit o total P C h hc hp v hpos G kT hkT kf kr hfit
  refine ⟨rfs, rrs, h2, h3, h4, ?_, ?_⟩
  · intro z hz
    obtain ⟨i, hi, rfl⟩ := List.mem_iff_getElem.mp hz
    rw [List.length_zipWith] at hi
    obtain ⟨st, is, fs, g1, -, -, g4, g5, -⟩ := states_ok h.parse (i := i) (by omega)
    obtain ⟨a, b, ra, rb, pa, pb, -⟩ := h5 i (by omega) st is fs g1 g4 g5
    rw [List.getElem?_eq_getElem (by omega)] at ra rb
    rw [List.getElem_zipWith, Option.some.inj ra, Option.some.inj rb]
    exact div_pos pb pa
  have hl := length_rxns h.parse
  rw [← gasFreeEnergy_eq h.parse _ G P C (coverage o.net total v) w hs]
  unfold production
  rw [production_swap, eq_div_iff hkT.ne']
  unfold logProduct
  symm
  apply sum_zip_scaled
  · omega
  · simp [h3, h4, hw]
  intro i i1 i2 i3
  have hi' : i < o.rxns.length := by omega
  obtain ⟨st, is, fs, g1, g2, -, g4, g5, o1, o2⟩ := states_ok h.parse hi'
  obtain ⟨a, b, ra, rb, -, -, hq, -⟩ := h5 i hi' st is fs g1 g4 g5
  rw [List.getElem?_eq_getElem (by omega)] at g2 ra rb
  rw [List.getElem_zipWith, Option.some.inj g2, Option.some.inj ra, Option.some.inj rb]
  have hcl := hc st (by rw [← Option.some.inj g2]; exact List.getElem_mem _)
  have hpl := hp st (by rw [← Option.some.inj g2]; exact List.getElem_mem _)
  have hin : ∀ gs, (st.head? = some gs ∨ st.getLast? = some gs) → (∀ f ∈ gs, OccursIn o.rxns f) →
      ∀ f ∈ gs, f.speciesSite ∈ allCols o.net := fun gs hgs hocc f hf =>
    (clean_formula h.parse (hocc f hf) (hcl.1.1 gs hgs f hf).1 (hcl.1.2 gs hgs f hf)
      (hcl.2 gs hgs f hf) (hpl gs hgs f hf) P C (coverage o.net total v)).1
  rw [sum_produced h.parse g4 g5 (hin is (Or.inl g4) o1) (hin fs (Or.inr g5) o2), hq, Real.log_exp]
  rw [mul_assoc, div_mul_cancel₀ _ hkT.ne']

/-- For rates from C85: the logarithms of the ratios, weighted. -/
theorem logProduct_rates (o : MFOwner ℝ) (total P C : Str → ℝ) (h : Ready o total P C)
    (hc : ∀ states ∈ o.net.rxns, RateClean states) (hp : ∀ states ∈ o.net.rxns, PlainSites states) (v : Str → ℝ)
    (hpos : AllPositive o.net P C (coverage o.net total v))
    (E : Dict Str ℝ) (G : Str → ℝ) (hG : Extends G E) (ro : RateOwner) (hro : ro.rxns = o.rxns) (hT : 0 < ro.T)
    (r : Rel ℝ) (hr : relativeFromAbsolute (some E) o.rxns = .ok r) (w : List ℝ) (hw : w.length = o.rxns.length) (hs : ClosedOnSurface o.net w) :
    ∃ kf kr rfs rrs, rateConstants ro .TST ⟨some r.gaf, some r.gar, some r.dg⟩ = .ok (kf, kr) ∧
      getRates o (kf, kr) (o.net.ads.map v) = .ok (rfs, rrs) ∧ rfs.length = o.rxns.length ∧ rrs.length = o.rxns.length ∧
      (∀ z ∈ List.zipWith (fun f r => r / f) rfs rrs, 0 < z) ∧
      logProduct w (List.zipWith (fun f r => r / f) rfs rrs) = gasFreeEnergy o.net (kBeV * ro.T) G P C w / (kBeV * ro.T) := by
  obtain ⟨kf, kr, hk, hfit⟩ := fit_TST E G hG ro hro hT r hr
  obtain ⟨rfs, rrs, g⟩ := logProduct_fit o total P C h hc hp v hpos G _ (mul_pos kBeV_pos hT) kf kr hfit w hw hs
  exact ⟨kf, kr, rfs, rrs, hk, g⟩

/-! ## C119 -/

/-- **C119** A run that ends without error, with rate constants from absolute energies by transition state theory and positive coverages:
the reversibilities it reports are positive, and multiplied along any numbers of reactions that leave nothing on the surface they give the
exponential of the free energy of the gases and liquids alone. Missing: end states with transition states or starred species, and sites
with a star in their name, as in C85. -/
theorem C119_reported_partial (env : RunEnv ℝ) (total P C : Str → ℝ) (h : Ready env.o total P C)
    (hc : ∀ states ∈ env.o.net.rxns, RateClean states) (hp : ∀ states ∈ env.o.net.rxns, PlainSites states)
    (E : Dict Str ℝ) (G : Str → ℝ) (hG : Extends G E) (ro : RateOwner) (hro : ro.rxns = env.o.rxns) (hT : 0 < ro.T)
    (r : Rel ℝ) (hr : relativeFromAbsolute (some E) env.o.rxns = .ok r)
    (hk : rateConstants ro .TST ⟨some r.gaf, some r.gar, some r.dg⟩ = .ok env.k)
    (plan : Py (Plan ℝ (List ℝ))) (xrc : Option (Option Str)) (st st' : RunState ℝ) (hrun : runModel env plan xrc st = some (st', .ok ()))
    (θ : Str → ℝ) (hθ : st'.rep.coverages = some (env.o.net.ads.map θ)) (hpos : AllPositive env.o.net P C (coverage env.o.net total θ))
    (w : List ℝ) (hw : w.length = env.o.rxns.length) (hs : ClosedOnSurface env.o.net w) :
    ∃ v, st'.rep.reversibilities = some v ∧ v.length = env.o.rxns.length ∧ (∀ z ∈ v, 0 < z) ∧
      logProduct w v = gasFreeEnergy env.o.net (kBeV * ro.T) G P C w / (kBeV * ro.T) := by
  obtain ⟨-, -, x, t, v, e, hrep, ⟨rf, rr, h1, h2, h3, -, -, rfl⟩⟩ := (C72_run env h.parse plan xrc st st' _ hrun).2.2 rfl
  rw [hrep] at hθ ⊢
  cases hθ
  obtain ⟨kf, kr, rfs, rrs, e1, e2, -, -, e3, e4⟩ := logProduct_rates env.o total P C h hc hp θ hpos E G hG ro hro hT r hr w hw hs
  rw [hk] at e1
  have e1 := Except.ok.inj e1
  rw [← e1, h1] at e2
  cases e2
  exact ⟨_, rfl, by simp [h2, h3], e3, e4⟩

/-- **C119** Numbers of reactions that make nothing at all: the product of the reversibilities is one. Missing: as in `C119_reported_partial`. -/
theorem C119_cycle_partial (env : RunEnv ℝ) (total P C : Str → ℝ) (h : Ready env.o total P C)
    (hc : ∀ states ∈ env.o.net.rxns, RateClean states) (hp : ∀ states ∈ env.o.net.rxns, PlainSites states)
    (E : Dict Str ℝ) (ro : RateOwner) (hro : ro.rxns = env.o.rxns) (hT : 0 < ro.T)
    (r : Rel ℝ) (hr : relativeFromAbsolute (some E) env.o.rxns = .ok r)
    (hk : rateConstants ro .TST ⟨some r.gaf, some r.gar, some r.dg⟩ = .ok env.k)
    (plan : Py (Plan ℝ (List ℝ))) (xrc : Option (Option Str)) (st st' : RunState ℝ) (hrun : runModel env plan xrc st = some (st', .ok ()))
    (θ : Str → ℝ) (hθ : st'.rep.coverages = some (env.o.net.ads.map θ)) (hpos : AllPositive env.o.net P C (coverage env.o.net total θ))
    (w : List ℝ) (hw : w.length = env.o.rxns.length) (hs : ∀ x ∈ allCols env.o.net, production env.o.net w x = 0) :
    ∃ v, st'.rep.reversibilities = some v ∧ v.length = env.o.rxns.length ∧ logProduct w v = 0 ∧
      (List.zipWith (fun w z => z ^ w) w v).prod = 1 := by
  obtain ⟨G, hG⟩ := exists_extends E
  obtain ⟨v, h1, h2, h3, h4⟩ := C119_reported_partial env total P C h hc hp E G hG ro hro hT r hr hk plan xrc st st' hrun θ hθ hpos w hw
    fun x hx => hs x (List.mem_append_left _ hx)
  have h0 : logProduct w v = 0 := by
    rw [h4]
    have : gasFreeEnergy env.o.net (kBeV * ro.T) G P C w = 0 := by
      unfold gasFreeEnergy
      rw [sum_map_zero, sum_map_zero, add_zero]
      · intro x hx; rw [hs x (by simp [allCols, Network.reaproCols, hx]), zero_mul]
      · intro x hx; rw [hs x (by simp [allCols, Network.reaproCols, hx]), zero_mul]
    rw [this, zero_div]
  refine ⟨v, h1, h2, h0, ?_⟩
  have key : ∀ w v : List ℝ, (∀ z ∈ v, 0 < z) → (List.zipWith (fun w z => z ^ w) w v).prod = Real.exp (logProduct w v) := by
    intro w
    induction w with
    | nil => intro v _; simp [logProduct]
    | cons a w ih =>
      intro v hv
      cases v with
      | nil => simp [logProduct]
      | cons z v =>
        rw [List.zipWith_cons_cons, List.prod_cons, ih v fun y hy => hv y (by simp [hy])]
        unfold logProduct
        rw [List.zipWith_cons_cons, List.sum_cons, Real.exp_add, Real.rpow_def_of_pos (hv z (by simp)), mul_comm a]
  rw [key w v h3, h0, Real.exp_zero]

/-- **C119** Two runs of models with the same reactions, temperature, pressures and concentrations, whose energies agree for gases and
liquids: whatever the energies of adsorbates and transition states, the sites, the plan and the coverages found, the product along the same
numbers of reactions is the same. Missing: as in `C119_reported_partial`. -/
theorem C119_catalyst_partial (env env' : RunEnv ℝ) (total total' P C : Str → ℝ) (h : Ready env.o total P C) (h' : Ready env'.o total' P C)
    (hrx : env'.o.rxns = env.o.rxns)
    (hc : ∀ states ∈ env.o.net.rxns, RateClean states) (hp : ∀ states ∈ env.o.net.rxns, PlainSites states)
    (E E' : Dict Str ℝ) (G G' : Str → ℝ) (hG : Extends G E) (hG' : Extends G' E') (hE : ∀ x ∈ env.o.net.gas ++ env.o.net.liq, G' x = G x)
    (ro ro' : RateOwner) (hro : ro.rxns = env.o.rxns) (hro' : ro'.rxns = env.o.rxns) (hT : 0 < ro.T) (hT' : ro'.T = ro.T)
    (r r' : Rel ℝ) (hr : relativeFromAbsolute (some E) env.o.rxns = .ok r) (hr' : relativeFromAbsolute (some E') env.o.rxns = .ok r')
    (hk : rateConstants ro .TST ⟨some r.gaf, some r.gar, some r.dg⟩ = .ok env.k)
    (hk' : rateConstants ro' .TST ⟨some r'.gaf, some r'.gar, some r'.dg⟩ = .ok env'.k)
    (plan plan' : Py (Plan ℝ (List ℝ))) (xrc xrc' : Option (Option Str)) (st st1 st' st1' : RunState ℝ)
    (hrun : runModel env plan xrc st = some (st1, .ok ())) (hrun' : runModel env' plan' xrc' st' = some (st1', .ok ()))
    (θ θ' : Str → ℝ) (hθ : st1.rep.coverages = some (env.o.net.ads.map θ)) (hθ' : st1'.rep.coverages = some (env.o.net.ads.map θ'))
    (hpos : AllPositive env.o.net P C (coverage env.o.net total θ)) (hpos' : AllPositive env.o.net P C (coverage env.o.net total' θ'))
    (w : List ℝ) (hw : w.length = env.o.rxns.length) (hs : ClosedOnSurface env.o.net w) :
    ∃ v v', st1.rep.reversibilities = some v ∧ st1'.rep.reversibilities = some v' ∧ logProduct w v = logProduct w v' := by
  have hn : env'.o.net = env.o.net := by
    have h1 := h'.parse
    rw [hrx, h.parse] at h1
    exact (Except.ok.inj h1).symm
  obtain ⟨v, a1, -, -, a2⟩ := C119_reported_partial env total P C h hc hp E G hG ro hro hT r hr hk plan xrc st st1 hrun θ hθ hpos w hw hs
  obtain ⟨v', b1, -, -, b2⟩ := C119_reported_partial env' total' P C h' (by rw [hn]; exact hc) (by rw [hn]; exact hp) E' G' hG' ro'
    (by rw [hrx]; exact hro') (by rw [hT']; exact hT) r' (by rw [hrx]; exact hr') hk' plan' xrc' st' st1' hrun' θ' (by rw [hn]; exact hθ')
    (by rw [hn]; exact hpos') w (by rw [hrx]; exact hw) (by rw [hn]; exact hs)
  refine ⟨v, v', a1, b1, ?_⟩
  rw [a2, b2, hT', hn]
  congr 1
  unfold gasFreeEnergy
  congr 2
  · apply List.map_congr_left
    intro x hx
    rw [hE x (by simp [hx])]
  · apply List.map_congr_left
    intro x hx
    rw [hE x (by simp [hx])]

theorem logProduct_least : ∀ (w v : List ℝ), (∀ x ∈ w, 0 ≤ x) → (∀ z ∈ v, 0 < z ∧ z ≤ 1) → w.length = v.length → logProduct w v ≤ 0 ∧
    ∀ (i : Nat) x z, w[i]? = some x → v[i]? = some z → logProduct w v ≤ x * Real.log z
  | [], [], _, _, _ => by simp [logProduct]
  | a :: w, y :: v, hw, hv, hl => by
    obtain ⟨i1, i2⟩ := logProduct_least w v (fun x hx => hw x (by simp [hx])) (fun z hz => hv z (by simp [hz])) (by simpa using hl)
    have hy := hv y (by simp)
    have h0 : a * Real.log y ≤ 0 := mul_nonpos_of_nonneg_of_nonpos (hw a (by simp)) (Real.log_nonpos hy.1.le hy.2)
    have he : logProduct (a :: w) (y :: v) = a * Real.log y + logProduct w v := by
      unfold logProduct; rw [List.zipWith_cons_cons, List.sum_cons]
    refine ⟨by rw [he]; linarith, ?_⟩
    intro i x z hx hz
    rw [he]
    cases i with
    | zero =>
      simp only [List.getElem?_cons_zero, Option.some.injEq] at hx hz
      subst hx hz
      linarith
    | succ i =>
      simp only [List.getElem?_cons_succ] at hx hz
      have := i2 i x z hx hz
      linarith
  | [], _ :: _, _, _, h => by simp at h
  | _ :: _, [], _, _, h => by simp at h

/-- **C119** Along a way of reactions all taken forwards: if none of them runs backwards, the overall free energy is not positive, and no
single reaction is further from equilibrium than the gases and liquids together allow; if the overall free energy is positive, some reaction
of the way runs backwards. Missing: as in `C119_reported_partial`. -/
theorem C119_allowed_partial (env : RunEnv ℝ) (total P C : Str → ℝ) (h : Ready env.o total P C)
    (hc : ∀ states ∈ env.o.net.rxns, RateClean states) (hp : ∀ states ∈ env.o.net.rxns, PlainSites states)
    (E : Dict Str ℝ) (G : Str → ℝ) (hG : Extends G E) (ro : RateOwner) (hro : ro.rxns = env.o.rxns) (hT : 0 < ro.T)
    (r : Rel ℝ) (hr : relativeFromAbsolute (some E) env.o.rxns = .ok r)
    (hk : rateConstants ro .TST ⟨some r.gaf, some r.gar, some r.dg⟩ = .ok env.k)
    (plan : Py (Plan ℝ (List ℝ))) (xrc : Option (Option Str)) (st st' : RunState ℝ) (hrun : runModel env plan xrc st = some (st', .ok ()))
    (θ : Str → ℝ) (hθ : st'.rep.coverages = some (env.o.net.ads.map θ)) (hpos : AllPositive env.o.net P C (coverage env.o.net total θ))
    (w : List ℝ) (hw : w.length = env.o.rxns.length) (hs : ClosedOnSurface env.o.net w) (hw0 : ∀ x ∈ w, 0 ≤ x) :
    ∃ v, st'.rep.reversibilities = some v ∧
      ((∀ z ∈ v, z ≤ 1) → gasFreeEnergy env.o.net (kBeV * ro.T) G P C w ≤ 0 ∧
        ∀ (i : Nat) x z, w[i]? = some x → v[i]? = some z → gasFreeEnergy env.o.net (kBeV * ro.T) G P C w / (kBeV * ro.T) ≤ x * Real.log z) ∧
      (0 < gasFreeEnergy env.o.net (kBeV * ro.T) G P C w → ∃ z ∈ v, 1 < z) := by
  obtain ⟨v, h1, h2, h3, h4⟩ := C119_reported_partial env total P C h hc hp E G hG ro hro hT r hr hk plan xrc st st' hrun θ hθ hpos w hw hs
  have hkT : 0 < kBeV * ro.T := mul_pos kBeV_pos hT
  have key : (∀ z ∈ v, z ≤ 1) → gasFreeEnergy env.o.net (kBeV * ro.T) G P C w ≤ 0 ∧
        ∀ (i : Nat) x z, w[i]? = some x → v[i]? = some z → gasFreeEnergy env.o.net (kBeV * ro.T) G P C w / (kBeV * ro.T) ≤ x * Real.log z := by
    intro hz
    obtain ⟨l1, l2⟩ := logProduct_least w v hw0 (fun z hm => ⟨h3 z hm, hz z hm⟩) (by rw [hw, h2])
    rw [h4] at l1 l2
    refine ⟨?_, l2⟩
    rcases div_nonpos_iff.mp l1 with ⟨-, hh⟩ | ⟨hh, -⟩
    · exact absurd hh (not_le.mpr hkT)
    · exact hh
  refine ⟨v, h1, key, fun hf => ?_⟩
  by_contra hn
  have hn' : ∀ z ∈ v, z ≤ 1 := fun z hz => by
    by_contra hz1
    exact hn ⟨z, hz, not_le.mp hz1⟩
  exact absurd (key hn').1 (not_le.mpr hf)

/-! ## C11 and C72: elements in the results of a run -/

/-- **C11** The turnover frequencies reported by a run that ends without error, and was not asked for the low-precision solution, conserve
every element up to the tolerance times the atoms of the element in all adsorbates. Missing: what C26 misses. -/
theorem C11_run_partial {K : Type} [Field K] [LinearOrder K] [IsStrictOrderedRing K] (env : RunEnv K) (total P C : Str → K) (h : Ready env.o total P C)
    (hc : ∀ states ∈ env.o.net.rxns, RateClean states) (κf κr : Str → K)
    (hkf : KOk env.o.rxns env.k.1 κf) (hkr : KOk env.o.rxns env.k.2 κr)
    (hone : ∀ a ∈ env.o.net.ads, ∀ states ∈ env.o.net.rxns, OneSided a states) (hne : env.o.net.ads ≠ [])
    (hres : env.search.resid = getResidual env.o env.k) (plan : Py (Plan K (List K))) (hprec : Precise plan)
    (st st' : RunState K) (hrun : runModel env plan none st = some (st', .ok ())) (θ : Str → K) (hθ : st'.rep.coverages = some (env.o.net.ads.map θ)) :
    ∃ tofs, st'.rep.tofs = some tofs ∧ ∀ e,
      |(List.zipWith (fun t x => t * (nameCount e x : K)) tofs (env.o.net.gas ++ env.o.net.liq)).sum| ≤
        env.search.tol * (env.o.net.ads.map fun a => |(nameCount e a : K)|).sum := by
  obtain ⟨-, -, x, t, v, e, hrep, ⟨rf, rr, h1, h2, h3, -, rfl, -⟩⟩ := (C72_run env h.parse plan none st st' _ hrun).2.2 rfl
  obtain ⟨x', r, -, g1, g2, g3, -⟩ := C72_steady env h.parse hres plan hprec st st' hrun
  rw [hθ] at g1
  cases g1
  rw [hrep] at hθ ⊢
  cases hθ
  refine ⟨_, rfl, fun el => ?_⟩
  obtain ⟨tofs, r', a1, a2, a3⟩ := C11_near_steady env.o total P C h hc θ env.k.1 env.k.2 κf κr hkf hkr hone hne
  have hkk : env.k = (env.k.1, env.k.2) := rfl
  rw [← hkk] at a1 a2
  rw [g2] at a2
  cases a2
  have hn : getNetRates env.o env.k (env.o.net.ads.map θ) = .ok (List.zipWith (· - ·) rf rr) := by
    unfold getNetRates; rw [h1]; rfl
  have := (C69_turnover env.o env.k _ _ h.parse hn (by simp [h2, h3])).1
  rw [a1] at this
  cases this
  refine (a3 el).trans (mul_le_mul_of_nonneg_right g3 ?_)
  apply List.sum_nonneg
  intro y hy
  obtain ⟨a, -, rfl⟩ := List.mem_map.mp hy
  exact abs_nonneg _

/-! ### concrete cases -/

/-- A run by the low-precision solution, after an earlier search. -/
theorem fsolve_run (env : RunEnv ℝ) (x : List ℝ) (hroot : env.root x = .ok x) (hp : parseNetwork env.o.rxns = .ok env.o.net) (rf rr : List ℝ)
    (hr : getRates env.o env.k x = .ok (rf, rr)) (hv : ∃ v, Verif.reversibilities rf rr = .ok v) (st : RunState ℝ) (e : ℝ) (he : st.solver.error = some e) :
    ∃ st', runModel env (.ok (.fsolve (.given x))) none st = some (st', .ok ()) ∧ st'.rep.coverages = some x := by
  obtain ⟨v, hv⟩ := hv
  have hn : getNetRates env.o env.k x = .ok (List.zipWith (· - ·) rf rr) := by
    unfold getNetRates; rw [hr]; rfl
  have ht := (C69_turnover env.o env.k x _ hp hn (by have := getRates_length hr; simp_all)).1
  unfold runModel findCoverages startCoverages coarseCoverages
  simp only [bind, Except.bind, hroot]
  unfold reportResults
  simp only [hr, ht, hv, he, runXrc]
  exact ⟨_, rfl, rfl⟩

/-- A run of the model `o`. -/
noncomputable def exRealRun (o : MFOwner ℝ) (k : List ℝ × List ℝ) : RunEnv ℝ where
  o := o
  k := k
  root c := .ok c
  ode := .error .IOError
  search := ⟨getResidual o k, fun _ => .ok 0, fun _ => ([], .stopped), 0, 0, none, [], false⟩
  constrain := .ok
  rounds := 1
  xrc _ s := some (s, .ok ())

/-- Such a run ends, for every model of `C119_reported_partial`. -/
theorem exRealRun_ends (o : MFOwner ℝ) (total P C : Str → ℝ) (h : Ready o total P C)
    (hc : ∀ states ∈ o.net.rxns, RateClean states) (hp : ∀ states ∈ o.net.rxns, PlainSites states) (v : Str → ℝ)
    (hpos : AllPositive o.net P C (coverage o.net total v))
    (E : Dict Str ℝ) (ro : RateOwner) (hro : ro.rxns = o.rxns) (hT : 0 < ro.T)
    (r : Rel ℝ) (hr : relativeFromAbsolute (some E) o.rxns = .ok r) :
    ∃ k st', rateConstants ro .TST ⟨some r.gaf, some r.gar, some r.dg⟩ = .ok k ∧
      runModel (exRealRun o k) (.ok (.fsolve (.given (o.net.ads.map v)))) none ⟨.new, ⟨none, some 0, false, [], []⟩⟩ = some (st', .ok ()) ∧
      st'.rep.coverages = some (o.net.ads.map v) := by
  obtain ⟨G, hG⟩ := exists_extends E
  obtain ⟨kf, kr, rfs, rrs, h1, h2, h3, h4, h5⟩ := C85_direction_partial o total P C h hc hp v hpos E G hG ro hro hT r hr
  have hv : ∃ w, Verif.reversibilities rfs rrs = .ok w := by
    unfold Verif.reversibilities
    rw [if_neg (by simp [h3, h4])]
    apply mapM_ok_exists
    intro q hq
    obtain ⟨i, hi, rfl⟩ := List.mem_iff_getElem.mp hq
    rw [List.length_zip] at hi
    obtain ⟨st, is, fs, g1, -, -, g4, g5, -⟩ := states_ok h.parse (i := i) (by omega)
    obtain ⟨a, b, ra, -, pa, -⟩ := h5 i (by omega) st is fs g1 g4 g5
    rw [List.getElem?_eq_getElem (by omega)] at ra
    rw [List.getElem_zip]
    dsimp only
    rw [Option.some.inj ra, if_neg pa.ne']
    exact ⟨_, rfl⟩
  obtain ⟨st', e1, e2⟩ := fsolve_run (exRealRun o (kf, kr)) (o.net.ads.map v) rfl h.parse rfs rrs h2 hv ⟨.new, ⟨none, some 0, false, [], []⟩⟩ 0 rfl
  exact ⟨_, st', h1, e1, e2⟩

/-- CO oxidation: twice the adsorption of CO, once that of oxygen and twice the reaction leave nothing on the surface. -/
theorem exDrive_closed : ClosedOnSurface exNet [2, 1, 2] := by
  have e1 : exNet.sites ++ exNet.ads = [str! "*_s", str! "CO_s", str! "O_s"] := by decide
  have e2 : ∀ x w, production (K := ℝ) exNet w x = (List.zipWith (fun (p : Int) r => (p : ℝ) * r) (exNet.rxns.map (produced x)) w).sum := by
    intro x w
    unfold production
    rw [List.zipWith_map_left]
  unfold ClosedOnSurface
  rw [e1]
  simp only [List.mem_cons, List.not_mem_nil, or_false, forall_eq_or_imp, forall_eq, e2]
  rw [show exNet.rxns.map (produced (str! "*_s")) = [-1, -2, 2] by decide, show exNet.rxns.map (produced (str! "CO_s")) = [1, 0, -1] by decide,
    show exNet.rxns.map (produced (str! "O_s")) = [0, 2, -1] by decide]
  norm_num

/-- The hypotheses of the theorems hold for CO oxidation with a quarter of the sites covered by each adsorbate. -/
example : ∃ r k st' v, relativeFromAbsolute (some exDriveE) exRxns = .ok r ∧
    rateConstants ⟨exRxns, 450, [], 0, 0, false⟩ .TST ⟨some r.gaf, some r.gar, some r.dg⟩ = .ok k ∧
    runModel (exRealRun exDriveMF k) (.ok (.fsolve (.given (exNet.ads.map fun _ => 1 / 4)))) none ⟨.new, ⟨none, some 0, false, [], []⟩⟩ = some (st', .ok ()) ∧
    st'.rep.reversibilities = some v ∧ ∃ G, Extends G exDriveE ∧
    logProduct [2, 1, 2] v = gasFreeEnergy exNet (kBeV * 450) G (fun _ => 1) (fun _ => 1) [2, 1, 2] / (kBeV * 450) := by
  obtain ⟨r, hr⟩ := (C12_complete_tables exDriveE exDriveMF.rxns exDriveMF.net exNet_ok).1 (by
    have hk : keys exDriveE = [str! "CO_g", str! "O2_g", str! "CO2_g", str! "*_s", str! "CO_s", str! "O_s",
      str! "CO-O_2s", str! "O-O_2s"] := rfl
    rw [hk]
    decide)
  obtain ⟨G, hG⟩ := exists_extends exDriveE
  have hc : ∀ st ∈ exDriveMF.net.rxns, RateClean st :=
    fun st hst => rateClean_of ((by decide : ∀ st ∈ exNet.rxns, rateCleanB st = true) st hst)
  have hp : ∀ st ∈ exDriveMF.net.rxns, PlainSites st :=
    fun st hst => plainSites_of ((by decide : ∀ st ∈ exNet.rxns, plainSitesB st = true) st hst)
  obtain ⟨k, st', h1, h2, h3⟩ := exRealRun_ends exDriveMF _ _ _ exDrive_ready hc hp (fun _ => 1 / 4) exDrive_positive exDriveE
    ⟨exRxns, 450, [], 0, 0, false⟩ rfl (by norm_num) r hr
  obtain ⟨v, g1, -, -, g2⟩ := C119_reported_partial (exRealRun exDriveMF k) _ _ _ exDrive_ready hc hp exDriveE G hG
    ⟨exRxns, 450, [], 0, 0, false⟩ rfl (by norm_num) r hr h1 _ none _ st' h2 (fun _ => 1 / 4) h3 exDrive_positive [2, 1, 2] rfl exDrive_closed
  exact ⟨r, k, st', v, hr, h1, h2, g1, G, hG, g2⟩

/-- Adsorption and desorption listed as two reactions. -/
def exLoopRxns : List Str := [str! "CO_g + *_s -> CO_s", str! "CO_s -> CO_g + *_s"]
def exLoopNet : Network :=
  match parseNetwork exLoopRxns with
  | .ok n => n
  | .error _ => ⟨[], [], [], [], [], []⟩

/-- `C119_cycle_partial`: adsorption and desorption of the loop make nothing. -/
example : parseNetwork exLoopRxns = .ok exLoopNet ∧ (∀ st ∈ exLoopNet.rxns, rateCleanB st = true) ∧ (∀ st ∈ exLoopNet.rxns, plainSitesB st = true) ∧
    ∀ x ∈ allCols exLoopNet, production (K := ℝ) exLoopNet [1, 1] x = 0 := by
  refine ⟨by decide, by decide, by decide, ?_⟩
  have e2 : ∀ x w, production (K := ℝ) exLoopNet w x = (List.zipWith (fun (p : Int) r => (p : ℝ) * r) (exLoopNet.rxns.map (produced x)) w).sum := by
    intro x w
    unfold production
    rw [List.zipWith_map_left]
  rw [show allCols exLoopNet = [str! "*_s", str! "CO_s", str! "CO_g"] by decide]
  simp only [List.mem_cons, List.not_mem_nil, or_false, forall_eq_or_imp, forall_eq, e2]
  rw [show exLoopNet.rxns.map (produced (str! "*_s")) = [-1, 1] by decide, show exLoopNet.rxns.map (produced (str! "CO_s")) = [1, -1] by decide,
    show exLoopNet.rxns.map (produced (str! "CO_g")) = [-1, 1] by decide]
  norm_num

/-- The reverse rate constant of adsorption is at most `k T / h`, whatever the cell. -/
theorem exLoop_rates : ∃ c k1 : ℝ, 0 < k1 ∧ ∀ A : ℝ, 0 < A → ∃ rr, 0 < rr ∧ rr ≤ kBeV * 450 / heV ∧
    rateConstants ⟨exLoopRxns, 450, [], A, 1 / 2, true⟩ .CT ⟨some [0, 2], some [2, 0], some [-2, 2]⟩ =
      .ok ([A * k1, kBeV * 450 / heV * Real.exp (-2 / (kBeV * 450))], [rr, kBeV * 450 / heV * Real.exp (-(0 - c) / (kBeV * 450))]) := by
  have hm : (0 : ℝ) < amu * ((280101 / 10000 : ℚ) : ℝ) := by
    have := amu_pos
    have h2 : (0 : ℝ) < ((280101 / 10000 : ℚ) : ℝ) := by norm_num
    positivity
  have hk0 := kBeV_pos
  have hh0 := heV_pos
  obtain ⟨c, hc⟩ := C67_defined_partial db_CO [] 450 P0 (by norm_num) P0_pos (by
    intro _ t ht; simp only [List.mem_singleton] at ht; subst ht; norm_num)
  have hrel : relOf exLoopRxns ⟨some [0, 2], some [2, 0], some [-2, 2]⟩ (str! "CO_g + *_s -> CO_s")
      = .ok (⟨0, 2, -2⟩ : Rel1 ℝ) := relOf_ok.mpr ⟨by decide, _, _, _, rfl, rfl, rfl, by
        rw [show List.idxOf (str! "CO_g + *_s -> CO_s") exLoopRxns = 0 by decide]; simp⟩
  have hrel' : relOf exLoopRxns ⟨some [0, 2], some [2, 0], some [-2, 2]⟩ (str! "CO_s -> CO_g + *_s")
      = .ok (⟨2, 0, 2⟩ : Rel1 ℝ) := relOf_ok.mpr ⟨by decide, _, _, _, rfl, rfl, rfl, by
        rw [show List.idxOf (str! "CO_s -> CO_g + *_s") exLoopRxns = 1 by decide]; simp⟩
  obtain ⟨k1, hk1, kp1, -⟩ := C20_bounded 0 1 (1 / 2) (amu * ((280101 / 10000 : ℚ) : ℝ)) 450 P0 1
      one_pos (by norm_num) (by norm_num) hm (by norm_num) P0_pos (by norm_num) (by norm_num)
  have hlin : ∀ A : ℝ, 0 < A → kCT 0 A (1 / 2) (amu * ((280101 / 10000 : ℚ) : ℝ)) 450 P0 1 = .ok (A * k1) := by
    intro A hA
    unfold kCT at hk1 ⊢
    rw [if_neg (by norm_num), if_neg (by norm_num), if_neg (by norm_num)] at hk1 ⊢
    dsimp only at hk1 ⊢
    split at hk1
    · cases hk1
    · split at hk1
      · cases hk1
      · rename_i g1 g2
        rw [if_neg g1, if_neg g2, ← Except.ok.inj hk1]
        congr 1
        ring
  refine ⟨c, k1, kp1, fun A hA => ?_⟩
  obtain ⟨g, hg, -⟩ := C19_rate_of_barrier (A * k1) 450 (mul_pos hA kp1) (by norm_num)
  have hfwd : ∃ rr, 0 < rr ∧ rr ≤ kBeV * 450 / heV ∧ ratesCT ⟨exLoopRxns, 450, [], A, 1 / 2, true⟩ ⟨some [0, 2], some [2, 0], some [-2, 2]⟩ false
      (str! "CO_g + *_s -> CO_s") = .ok (A * k1, rr) := by
    unfold ratesCT
    rw [show eqnFormulas (str! "CO_g + *_s -> CO_s") = .ok
      [[fCO, ⟨str! "*_s", 1, str! "*", 1, str! "s", str! "*_s"⟩],
       [⟨str! "CO_s", 1, str! "CO", 1, str! "s", str! "CO_s"⟩]] by decide, hrel]
    simp only [bind, Except.bind, List.head?_cons, List.getLast?_cons_cons, List.getLast?_singleton]
    rw [show List.find? (fun x : Formula => decide (x.type = .gas))
      [fCO, ⟨str! "*_s", 1, str! "*", 1, str! "s", str! "*_s"⟩] = some fCO by decide]
    simp only [db_CO.mass]
    rw [if_neg (not_not.mpr hA)]
    simp only [pure, Except.pure, if_false, pressureCT, Bool.false_eq_true, hlin A hA, hg,
      show entropyCorrection [] 450 (some P0) fCO.text = .ok c from hc]
    rw [if_neg (by simp), (kTST_ok (by norm_num)).mpr rfl]
    refine ⟨_, by positivity, ?_, rfl⟩
    have : Real.exp (-(if g - (-2 - (fCO.stoich : ℝ) * c) < 0 then 0 else g - (-2 - (fCO.stoich : ℝ) * c)) / (kBeV * 450)) ≤ 1 := by
      rw [Real.exp_le_one_iff]
      apply div_nonpos_of_nonpos_of_nonneg _ (by positivity)
      split
      · simp
      · linarith
    calc _ ≤ kBeV * 450 / heV * 1 := mul_le_mul_of_nonneg_left this (by positivity)
      _ = _ := mul_one _
  have hbwd : ratesCT ⟨exLoopRxns, 450, [], A, 1 / 2, true⟩ ⟨some [0, 2], some [2, 0], some [-2, 2]⟩ false (str! "CO_s -> CO_g + *_s")
      = .ok (kBeV * 450 / heV * Real.exp (-2 / (kBeV * 450)), kBeV * 450 / heV * Real.exp (-(0 - c) / (kBeV * 450))) := by
    unfold ratesCT
    rw [show eqnFormulas (str! "CO_s -> CO_g + *_s") = .ok
      [[⟨str! "CO_s", 1, str! "CO", 1, str! "s", str! "CO_s"⟩],
       [fCO, ⟨str! "*_s", 1, str! "*", 1, str! "s", str! "*_s"⟩]] by decide, hrel']
    simp only [bind, Except.bind, List.head?_cons, List.getLast?_cons_cons, List.getLast?_singleton]
    rw [show List.find? (fun x : Formula => decide (x.type = .gas))
      [⟨str! "CO_s", 1, str! "CO", 1, str! "s", str! "CO_s"⟩] = none by decide]
    dsimp only
    rw [show List.find? (fun x : Formula => decide (x.type = .gas))
      [fCO, ⟨str! "*_s", 1, str! "*", 1, str! "s", str! "*_s"⟩] = some fCO by decide]
    simp only [db_CO.mass]
    rw [if_neg (not_not.mpr hA)]
    simp only [pure, Except.pure, if_false, pressureCT, Bool.false_eq_true,
      show entropyCorrection [] 450 (some P0) fCO.text = .ok c from hc]
    rw [if_neg (by simp), (kTST_ok (by norm_num)).mpr rfl, (kTST_ok (by norm_num)).mpr rfl]
    simp [fCO]
  obtain ⟨rr, r1, r2, hf⟩ := hfwd
  refine ⟨rr, r1, r2, ?_⟩
  unfold rateConstants
  rw [if_neg (by simp)]
  rw [show (⟨exLoopRxns, 450, [], A, 1 / 2, true⟩ : RateOwner).rxns = [str! "CO_g + *_s -> CO_s", str! "CO_s -> CO_g + *_s"] from rfl]
  simp only [List.mapM_cons, List.mapM_nil, hf, hbwd, bind, Except.bind, pure, Except.pure, List.map_cons, List.map_nil]

/-- **C119** (refuted) With rate constants from collision theory the product round a loop need not be one: for a cell that is large enough, the
reverse barrier of adsorption is cut off at zero, and adsorption and desorption no longer balance, though the energies come from a
table of absolute energies. -/
theorem C119_collision_refuted : relativeFromAbsolute (some [(str! "CO_g", 0), (str! "*_s", 0), (str! "CO_s", -2)]) exLoopRxns = .ok (⟨[0, 2], [2, 0], [-2, 2]⟩ : Rel ℝ) ∧
    ∃ area rf rr rf' rr' : ℝ, 0 < area ∧
      rateConstants ⟨exLoopRxns, 450, [], area, 1 / 2, true⟩ .CT ⟨some [0, 2], some [2, 0], some [-2, 2]⟩ = .ok ([rf, rf'], [rr, rr']) ∧
      rr / rf * (rr' / rf') < 1 := by
  constructor
  · have e1 : singleRelative [(str! "CO_g", 0), (str! "*_s", 0), (str! "CO_s", -2)] (str! "CO_g + *_s -> CO_s") = .ok (⟨0, 2, -2⟩ : Rel1 ℝ) := by
      refine (show _ = Except.ok (⟨max (0 + ((1 : Nat) : ℝ) * 0 + ((1 : Nat) : ℝ) * 0) (0 + ((1 : Nat) : ℝ) * -2) - (0 + ((1 : Nat) : ℝ) * 0 + ((1 : Nat) : ℝ) * 0),
        max (0 + ((1 : Nat) : ℝ) * 0 + ((1 : Nat) : ℝ) * 0) (0 + ((1 : Nat) : ℝ) * -2) - (0 + ((1 : Nat) : ℝ) * -2),
        (0 + ((1 : Nat) : ℝ) * -2) - (0 + ((1 : Nat) : ℝ) * 0 + ((1 : Nat) : ℝ) * 0)⟩ : Rel1 ℝ) from rfl).trans ?_
      norm_num
    have e2 : singleRelative [(str! "CO_g", 0), (str! "*_s", 0), (str! "CO_s", -2)] (str! "CO_s -> CO_g + *_s") = .ok (⟨2, 0, 2⟩ : Rel1 ℝ) := by
      refine (show _ = Except.ok (⟨max (0 + ((1 : Nat) : ℝ) * -2) (0 + ((1 : Nat) : ℝ) * 0 + ((1 : Nat) : ℝ) * 0) - (0 + ((1 : Nat) : ℝ) * -2),
        max (0 + ((1 : Nat) : ℝ) * -2) (0 + ((1 : Nat) : ℝ) * 0 + ((1 : Nat) : ℝ) * 0) - (0 + ((1 : Nat) : ℝ) * 0 + ((1 : Nat) : ℝ) * 0),
        (0 + ((1 : Nat) : ℝ) * 0 + ((1 : Nat) : ℝ) * 0) - (0 + ((1 : Nat) : ℝ) * -2)⟩ : Rel1 ℝ) from rfl).trans ?_
      norm_num
    unfold relativeFromAbsolute
    rw [show exLoopRxns = [str! "CO_g + *_s -> CO_s", str! "CO_s -> CO_g + *_s"] from rfl]
    simp only [List.mapM_cons, List.mapM_nil, e1, e2, bind, Except.bind, pure, Except.pure, List.map_cons, List.map_nil]
  obtain ⟨c, k1, hk1, hall⟩ := exLoop_rates
  have hk0 := kBeV_pos
  have hh0 := heV_pos
  have hx : 0 < kBeV * 450 / heV * Real.exp (-2 / (kBeV * 450)) := by positivity
  have hy : 0 < kBeV * 450 / heV * Real.exp (-(0 - c) / (kBeV * 450)) := by positivity
  have hq := div_pos hy hx
  generalize hQ : kBeV * 450 / heV * Real.exp (-(0 - c) / (kBeV * 450)) / (kBeV * 450 / heV * Real.exp (-2 / (kBeV * 450))) = Q at hq
  have hB : 0 < kBeV * 450 / heV := by positivity
  have hA : 0 < 2 * (kBeV * 450 / heV) * Q / k1 := by positivity
  obtain ⟨rr, r1, r2, hr⟩ := hall _ hA
  refine ⟨_, _, _, _, _, hA, hr, ?_⟩
  rw [hQ, div_mul_cancel₀ _ hk1.ne', div_mul_eq_mul_div, div_lt_one (by positivity)]
  have := mul_le_mul_of_nonneg_right r2 hq.le
  have := mul_pos hB hq
  linarith

/-- `C11_run_partial`: the run of dissociative adsorption from Run.lean. -/
example : Ready exDissMF (fun _ => 1) (fun _ => 1) (fun _ => 1) ∧ (∀ st ∈ exDissMF.net.rxns, rateCleanB st = true) ∧
    (∀ a ∈ exDissMF.net.ads, ∀ st ∈ exDissMF.net.rxns, oneSidedB a st = true) ∧ exDissMF.net.ads.length = 1 ∧ Precise exRun1.2.1 ∧
    KOk exDissMF.rxns exRun1.1.k.1 (fun _ => 1) ∧ KOk exDissMF.rxns exRun1.1.k.2 (fun _ => 4) ∧
    ((runModel exRun1.1 exRun1.2.1 none ⟨.new, exFresh⟩).map fun r => (r.1.rep.coverages, r.2)) = some (some (exDissMF.net.ads.map fun _ => 3587227 / 10761680), .ok ()) := by
  refine ⟨⟨by decide, ?_, ?_, ?_⟩, by decide, by decide, by decide, trivial, ⟨?_⟩, ⟨?_⟩, by decide +kernel⟩
  · decide +kernel
  · decide +kernel
  · decide +kernel
  · intro i hi
    have : i = 0 := by have : exDissMF.rxns.length = 1 := rfl; omega
    subst this; rfl
  · intro i hi
    have : i = 0 := by have : exDissMF.rxns.length = 1 := rfl; omega
    subst this; rfl

end Verif
