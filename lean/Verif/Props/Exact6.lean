import Verif.Props.MeanField
import Verif.Props.Constrain
import Verif.Props.Thermo
/-
Exact companions of C11, C18 and C27: what builds up on the surface while it is not stationary, bridging adsorbates, and when rates are equal.
-/
namespace Verif
open Dict

section
variable {K : Type} [Field K]

/-! ## C11 -/

/-- **C11** At any coverages, stationary or not: the turnover frequencies weighted by composition add up to minus what builds up of the element on the surface. -/
theorem C11_build_up (o : MFOwner K) (k : List K × List K) (cvgs net tofs : List K)
    (h : parseNetwork o.rxns = .ok o.net) (hc : ∀ states ∈ o.net.rxns, CleanEnds states)
    (hnet : getNetRates o k cvgs = .ok net) (hlen : net.length = o.rxns.length) (ht : getTof o k cvgs = .ok tofs) (e : Char) :
    (List.zipWith (fun t x => t * (nameCount e x : K)) tofs (o.net.gas ++ o.net.liq)).sum = - (o.net.ads.map fun a => production o.net net a * (nameCount e a : K)).sum := by
  rw [(C69_turnover o k cvgs net h hnet hlen).1] at ht
  rw [← Except.ok.inj ht]
  have hz : ∀ l : List Str, (List.zipWith (fun t x => t * (nameCount e x : K)) (l.map (production o.net net)) l).sum
      = (l.map fun x => production o.net net x * (nameCount e x : K)).sum := by
    intro l
    rw [List.zipWith_map_left, List.zipWith_self]
  rw [hz]
  have hsum : (o.net.siteCols.map fun x => production o.net net x * (nameCount e x : K)).sum
      + ((o.net.gas ++ o.net.liq).map fun x => production o.net net x * (nameCount e x : K)).sum = 0 := by
    unfold production
    rw [production_swap, production_swap]
    have hb := fun st hst => element_balance (K := K) h (st := st) hst (hc st hst) e
    generalize o.net.rxns = rs at hb
    clear hnet hlen ht hz
    induction rs generalizing net with
    | nil => simp
    | cons st rs ih =>
      cases net with
      | nil => simp
      | cons r net =>
        have h1 := ih net fun s hs => hb s (by simp [hs])
        have h2 := hb st (by simp)
        simp only [List.zipWith_cons_cons, List.sum_cons]
        rw [show o.net.reaproCols = o.net.gas ++ o.net.liq from rfl] at h2
        linear_combination h1 + r * h2
  have hsite : (o.net.sites.map fun x => production o.net net x * (nameCount e x : K)).sum = 0 := by
    apply sum_map_zero
    intro x hs
    obtain ⟨g, -, -, -, -, hf⟩ := nameCount_site h hs
    have : nameCount e x = 0 := by
      unfold nameCount
      rw [hf]
      rfl
    rw [this]; simp
  unfold Network.siteCols at hsum
  rw [List.map_append, List.sum_append, hsite, zero_add] at hsum
  linear_combination hsum

end

/-- **C11** At coverages with a residual `r`, as a search returns them: the elements balance in the turnover frequencies up to `r` times the atoms of the element in all adsorbates. -/
theorem C11_near_steady {K : Type} [Field K] [LinearOrder K] [IsStrictOrderedRing K] (o : MFOwner K) (total P C : Str → K) (h : Ready o total P C)
    (hc : ∀ states ∈ o.net.rxns, RateClean states) (v : Str → K) (kf kr : List K) (κf κr : Str → K)
    (hkf : KOk o.rxns kf κf) (hkr : KOk o.rxns kr κr)
    (hone : ∀ a ∈ o.net.ads, ∀ states ∈ o.net.rxns, OneSided a states) (hne : o.net.ads ≠ []) :
    ∃ tofs r, getTof o (kf, kr) (o.net.ads.map v) = .ok tofs ∧ getResidual o (kf, kr) (o.net.ads.map v) = .ok r ∧
      ∀ e, |(List.zipWith (fun t x => t * (nameCount e x : K)) tofs (o.net.gas ++ o.net.liq)).sum| ≤ r * (o.net.ads.map fun a => |(nameCount e a : K)|).sum := by
  obtain ⟨net, h1, h2, h3⟩ := C26_derivatives_partial o total P C h hc v kf kr κf κr hkf hkr hone
  have ht := (C69_turnover o (kf, kr) (o.net.ads.map v) net h.parse h1 h2).1
  obtain ⟨r, hr, -, hb, -⟩ := C30_residual o (kf, kr) _ _ h3 (by simpa using hne)
  refine ⟨_, r, ht, hr, fun e => ?_⟩
  rw [C11_build_up o (kf, kr) _ net _ h.parse (fun st hs => (hc st hs).1.1) h1 h2 ht e, abs_neg]
  have hb' : ∀ a ∈ o.net.ads, |production o.net net a| ≤ r := fun a ha => hb _ (List.mem_map_of_mem ha)
  generalize o.net.ads = l at hb'
  induction l with
  | nil => simp
  | cons a l ih =>
    simp only [List.map_cons, List.sum_cons, mul_add]
    refine (abs_add_le _ _).trans (add_le_add ?_ (ih fun b hb => hb' b (by simp [hb])))
    rw [abs_mul]
    exact mul_le_mul_of_nonneg_right (hb' a (by simp)) (abs_nonneg _)

/-! ## C27 -/

section
variable {K : Type} [Field K]

theorem site_weights_all {rxns : List Str} {n : Network} (h : parseNetwork rxns = .ok n) {s : Str} (hs : s ∈ n.sites) {g : Formula}
    (hg1 : g.site ≠ str! "g") (hg2 : g.site ≠ str! "l") (hsg : s = str! "*_" ++ g.site) (d : Str → K) :
    (n.siteCols.map fun x => d x * (nameSites g.site x : K)).sum
      + (n.reaproCols.map fun x => d x * (nameSites g.site x : K)).sum
      = ((n.ads.filter fun a => OnSite a s).map fun a => d a * (nameSites g.site a : K)).sum + d s := by
  have hrea : (n.reaproCols.map fun x => d x * (nameSites g.site x : K)).sum = 0 := by
    apply sum_map_zero
    intro x hx
    have : nameSites g.site x = 0 := by
      have hx' : ∃ f, OccursIn rxns f ∧ f.speciesSite = x ∧ (f.site = str! "g" ∨ f.site = str! "l") := by
        have sk : ∀ f : Formula, specKind f.species f.site = .gas ∨ specKind f.species f.site = .liquid →
            f.site = str! "g" ∨ f.site = str! "l" := by
          intro f hk
          by_contra hcon
          rw [not_or] at hcon
          unfold specKind at hk
          rw [if_neg hcon.1, if_neg hcon.2] at hk
          simp only [List.contains_iff_mem] at hk
          by_cases a1 : '-' ∈ f.species <;> by_cases a2 : '*' ∈ f.species <;> simp [a1, a2] at hk
        rcases List.mem_append.mp hx with hx | hx
        · obtain ⟨f, hf, hk, he⟩ := (mem_names_iff h .gas (by decide) x).mp hx
          exact ⟨f, hf, he, sk f (Or.inl hk)⟩
        · obtain ⟨f, hf, hk, he⟩ := (mem_names_iff h .liquid (by decide) x).mp hx
          exact ⟨f, hf, he, sk f (Or.inr hk)⟩
      obtain ⟨f, hf, rfl, hsite⟩ := hx'
      obtain ⟨ns, gf⟩ := network_good h f ((mem_flat_iff h f).mpr hf)
      rw [nameSites_good gf, if_neg]
      rintro ⟨e1, e2, e3⟩
      rcases hsite with e | e
      · exact e2 (e1.symm.trans e)
      · exact e3 (e1.symm.trans e)
    rw [this]; simp
  have hsites : (n.sites.map fun x => d x * (nameSites g.site x : K)).sum
      = d s := by
    have hw : ∀ x ∈ n.sites, nameSites g.site x = if x = s then 1 else 0 := by
      intro x hx
      obtain ⟨g', -, -, -, e, hf⟩ := nameCount_site h hx
      unfold nameSites
      rw [hf]
      dsimp only
      by_cases hxs : x = s
      · rw [if_pos hxs, if_pos]
        · rfl
        · refine ⟨?_, hg1, hg2⟩
          rw [e, hsg] at hxs
          exact List.append_cancel_left hxs
      · rw [if_neg hxs, if_neg]
        rintro ⟨e1, -⟩
        exact hxs (by rw [e, hsg, e1])
    have hnd := (C08_lists_sorted _ _ h).2.2
    generalize n.sites = l at hs hw hnd
    induction l with
    | nil => simp at hs
    | cons x l ih =>
      rw [List.nodup_cons] at hnd
      rw [List.map_cons, List.sum_cons, hw x (by simp)]
      by_cases e : x = s
      · subst e
        rw [sum_map_zero l]
        · simp
        · intro y hy
          rw [hw y (by simp [hy]), if_neg (fun e : y = x => hnd.1 (e ▸ hy))]
          simp
      · rw [if_neg e, ih (by
          rcases List.mem_cons.mp hs with h | h
          · exact absurd h.symm e
          · exact h) (fun y hy => hw y (by simp [hy])) hnd.2]
        simp
  have hads : (n.ads.map fun x => d x * (nameSites g.site x : K)).sum
      = ((n.ads.filter fun a => OnSite a s).map fun a => d a * (nameSites g.site a : K)).sum := by
    have hw : ∀ a ∈ n.ads, ¬ OnSite a s → nameSites g.site a = 0 := by
      intro a ha hon'
      obtain ⟨f, hf, hk, rfl⟩ := (mem_names_iff h .ads (by decide) a).mp ha
      obtain ⟨ns, gf⟩ := network_good h f ((mem_flat_iff h f).mpr hf)
      have hon : OnSite f.speciesSite s ↔ f.site = g.site := by
        unfold OnSite siteNameOf
        rw [gf.reparse, hsg]
        simp [bind, Except.bind, pure, Except.pure]
      rw [nameSites_good gf, if_neg (fun h => hon' (hon.mpr h.1))]
    generalize n.ads = l at hw
    induction l with
    | nil => rfl
    | cons a l ih =>
      rw [List.map_cons, List.sum_cons, ih fun b hb => hw b (by simp [hb])]
      by_cases e : OnSite a s
      · simp [e]
      · simp [e, hw a (by simp) e]
  rw [hrea, add_zero]
  unfold Network.siteCols
  rw [List.map_append, List.sum_append, hsites, hads, add_comm]

/-- **C27** For adsorbates that occupy any numbers of sites: on every site type the derivatives weighted with the numbers of occupied sites and the change of the free sites implied by
the reactions cancel. The coverages of the model count each adsorbate once, so the sum over the derivatives misses the further sites of each adsorbate. -/
theorem C27_weighted (o : MFOwner K) (total P C : Str → K) (h : Ready o total P C)
    (hc : ∀ states ∈ o.net.rxns, RateClean states) (v : Str → K) (kf kr : List K) (κf κr : Str → K)
    (hkf : KOk o.rxns kf κf) (hkr : KOk o.rxns kr κr)
    (hone : ∀ a ∈ o.net.ads, ∀ states ∈ o.net.rxns, OneSided a states) :
    ∃ (net : List K) (D : Str → K), getNetRates o (kf, kr) (o.net.ads.map v) = .ok net ∧
      steadyStateFunction o (kf, kr) (o.net.ads.map v) = .ok (o.net.ads.map D) ∧
      ∀ s ∈ o.net.sites, ∃ t, s = str! "*_" ++ t ∧
        ((o.net.ads.filter fun a => OnSite a s).map fun a => D a * (nameSites t a : K)).sum + production o.net net s = 0 ∧
        ((o.net.ads.filter fun a => OnSite a s).map D).sum + production o.net net s =
          - ((o.net.ads.filter fun a => OnSite a s).map fun a => D a * ((nameSites t a : K) - 1)).sum := by
  obtain ⟨net, h1, h2, h3⟩ := C26_derivatives_partial o total P C h hc v kf kr κf κr hkf hkr hone
  refine ⟨net, _, h1, h3, ?_⟩
  intro s hs
  obtain ⟨g, -, hg1, hg2, hsg, -⟩ := nameCount_site h.parse hs
  have hsum : (o.net.siteCols.map fun x => production o.net net x * (nameSites g.site x : K)).sum
      + (o.net.reaproCols.map fun x => production o.net net x * (nameSites g.site x : K)).sum = 0 := by
    unfold production
    rw [production_swap, production_swap]
    have hb := fun st hst => site_balance (K := K) h.parse (st := st) hst (hc st hst).1 g.site
    generalize o.net.rxns = rs at hb
    clear h1 h2 h3
    induction rs generalizing net with
    | nil => simp
    | cons st rs ih =>
      cases net with
      | nil => simp
      | cons r net =>
        have i1 := ih net fun s hs => hb s (by simp [hs])
        have i2 := hb st (by simp)
        simp only [List.zipWith_cons_cons, List.sum_cons]
        linear_combination i1 + r * i2
  rw [site_weights_all h.parse hs hg1 hg2 hsg] at hsum
  refine ⟨g.site, hsg, hsum, ?_⟩
  have hsplit : ∀ l : List Str, (l.map fun a => production o.net net a * (nameSites g.site a : K)).sum =
      (l.map fun a => production o.net net a * ((nameSites g.site a : K) - 1)).sum + (l.map (production o.net net)).sum := by
    intro l
    induction l with
    | nil => simp
    | cons a l ih => simp only [List.map_cons, List.sum_cons, ih]; ring
  rw [hsplit] at hsum
  linear_combination hsum

end

/-- The bridging oxygen of C27_bridge_refuted occupies two sites. -/
example : nameSites (str! "s") (str! "O2_2s") = 2 ∧ OnSite (str! "O2_2s") (str! "*_s") := by decide

/-! ## C18 -/

/-- **C18** With energies from absolute energies: the forward and reverse rates of all reactions are equal exactly if for every reaction the activities of its two ends times
`exp (G / kB T)` are equal. -/
theorem C18_iff (o : MFOwner ℝ) (total P C : Str → ℝ) (h : Ready o total P C)
    (hc : ∀ states ∈ o.net.rxns, RateClean states) (v : Str → ℝ) (ro : RateOwner) (hro : ro.rxns = o.rxns)
    (hT : 0 < ro.T) (E : Dict Str ℝ) (G : Str → ℝ) (hG : Extends G E) (r : Rel ℝ)
    (hr : relativeFromAbsolute (some E) o.rxns = .ok r) :
    ∃ kf kr rfs rrs, rateConstants ro .TST ⟨some r.gaf, some r.gar, some r.dg⟩ = .ok (kf, kr) ∧
      getRates o (kf, kr) (o.net.ads.map v) = .ok (rfs, rrs) ∧
      (rfs = rrs ↔ ∀ states ∈ o.net.rxns, ∀ is fs, states.head? = some is → states.getLast? = some fs →
        stateActivity P C (coverage o.net total v) is * Real.exp (specEnergy G is / (kBeV * ro.T)) =
        stateActivity P C (coverage o.net total v) fs * Real.exp (specEnergy G fs / (kBeV * ro.T))) := by
  have hkB := kBeV_pos
  have hhe := heV_pos
  have single : ∀ rxn ∈ ro.rxns, ∃ y w, ratesTST ro ⟨some r.gaf, some r.gar, some r.dg⟩ false rxn = .ok y ∧
      singleRelative E rxn = .ok w ∧ y.1 / y.2 = Real.exp (-w.dg / (kBeV * ro.T)) ∧ y.2 ≠ 0 := by
    intro rxn hx
    rw [← hro] at hr
    obtain ⟨w, kf, kr, hw, hrate, hq⟩ := C17_from_absolute_energies E ro r hT hr rxn hx
    refine ⟨(kf, kr), w, hrate, hw, hq, ?_⟩
    obtain ⟨u, -, -, h2⟩ := ratesTST_ok.mp hrate
    rw [(kTST_ok hT.ne').mp h2]
    positivity
  obtain ⟨l, hl⟩ := mapM_ok_exists (f := ratesTST ro ⟨some r.gaf, some r.gar, some r.dg⟩ false)
    (l := ro.rxns) (fun x hx => by obtain ⟨y, -, hy, -⟩ := single x hx; exact ⟨y, hy⟩)
  have hk : rateConstants ro .TST ⟨some r.gaf, some r.gar, some r.dg⟩ = .ok (l.map (·.1), l.map (·.2)) := by
    unfold rateConstants
    rw [if_neg (by simp)]
    simp only [hl]
    rfl
  obtain ⟨m1, m2⟩ := mapM_ok_inv hl
  obtain ⟨-, -, κf, κr, hκf, hκr⟩ := kOk_rateConstants hk
  have hκ : ∀ i (hi : i < ro.rxns.length), κf ro.rxns[i] = (l[i]'(by omega)).1 ∧ κr ro.rxns[i] = (l[i]'(by omega)).2 := by
    intro i hi
    have a := hκf.get i hi
    have b := hκr.get i hi
    simp only [List.getElem?_map, List.getElem?_eq_getElem (show i < l.length by omega), Option.map_some,
      Option.some.injEq] at a b
    exact ⟨a.symm, b.symm⟩
  rw [hro] at hκf hκr
  obtain ⟨rfs, rrs, h1, h2, h3, h4⟩ := getRates_ok h hc v _ _ κf κr hκf hκr
  have each : ∀ i (hi : i < o.rxns.length) (i1 : i < rfs.length) (i2 : i < rrs.length), ∃ st is fs, o.net.rxns[i]? = some st ∧ st.head? = some is ∧ st.getLast? = some fs ∧
      (rfs[i] = rrs[i] ↔ stateActivity P C (coverage o.net total v) is * Real.exp (specEnergy G is / (kBeV * ro.T)) =
        stateActivity P C (coverage o.net total v) fs * Real.exp (specEnergy G fs / (kBeV * ro.T))) := by
    intro i hi i1 i2
    obtain ⟨st, is, fs, e1, e2, e3, e4, e5, -⟩ := states_ok h.parse hi
    refine ⟨st, is, fs, e2, e4, e5, ?_⟩
    obtain ⟨q1, q2⟩ := h4 i hi st is fs e1 e4 e5
    rw [List.getElem?_eq_getElem i1] at q1
    rw [List.getElem?_eq_getElem i2] at q2
    rw [Option.some.inj q1, Option.some.inj q2]
    obtain ⟨y, w, hy, hw, hq, hne⟩ := single o.rxns[i] (by rw [hro]; exact List.getElem_mem _)
    have hi' : i < ro.rxns.length := by rw [hro]; exact hi
    have hl' := m2 i hi' (by omega)
    have hxx : ro.rxns[i] = o.rxns[i] := by congr 1
    rw [hxx, hy] at hl'
    obtain ⟨k1, k2⟩ := hκ i hi'
    rw [hxx, ← Except.ok.inj hl'] at k1 k2
    rw [k1, k2]
    obtain ⟨st', is', fs', f1, f2, f3, -, f5, -⟩ := C12_single_reaction E G hG _ _ hw
    rw [e1] at f1; cases f1
    rw [e4] at f2; cases f2
    rw [e5] at f3; cases f3
    have hy1 : y.1 = y.2 * Real.exp (-w.dg / (kBeV * ro.T)) := by
      rw [← hq]; field_simp
    rw [hy1, f5]
    have hx : Real.exp (-(specEnergy G fs - specEnergy G is) / (kBeV * ro.T)) * Real.exp (specEnergy G fs / (kBeV * ro.T)) =
        Real.exp (specEnergy G is / (kBeV * ro.T)) := by
      rw [← Real.exp_add]; congr 1; ring
    rw [← hx]
    have hp := Real.exp_pos (specEnergy G fs / (kBeV * ro.T))
    generalize Real.exp (specEnergy G fs / (kBeV * ro.T)) = b at hp
    generalize Real.exp (-(specEnergy G fs - specEnergy G is) / (kBeV * ro.T)) = a
    rw [mul_assoc, mul_right_inj' hne, ← mul_assoc, mul_left_inj' hp.ne', mul_comm a]
  have hlen := length_rxns h.parse
  refine ⟨_, _, rfs, rrs, hk, h1, ?_⟩
  constructor
  · rintro rfl st hst is fs his hfs
    obtain ⟨i, hi, rfl⟩ := List.mem_iff_getElem.mp hst
    obtain ⟨st', is', fs', e1, e2, e3, e4⟩ := each i (by omega) (by omega) (by omega)
    rw [List.getElem?_eq_getElem hi] at e1
    cases e1
    rw [his] at e2; cases e2
    rw [hfs] at e3; cases e3
    exact e4.mp rfl
  · intro hall
    apply List.ext_getElem (by omega)
    intro i i1 i2
    obtain ⟨st, is, fs, e1, e2, e3, e4⟩ := each i (by omega) i1 i2
    exact e4.mpr (hall st (List.mem_of_getElem? e1) is fs e2 e3)

/-! ### The theorems at these cases -/

example (e : Char) := C11_build_up exMF ([2, 3, 5], [0, 0, 0]) [1 / 2, 1 / 5] [2 * (1 / 2) * (3 / 10), 3 * (1 / 4) * (3 / 10) ^ 2, 5 * (1 / 2) * (1 / 5)]
  [5 * (1 / 2) * (1 / 5), - (2 * (1 / 2) * (3 / 10)), - (3 * (1 / 4) * (3 / 10) ^ 2)] exMF_ready.parse (fun st hst => (exMF_clean st hst).1.1)
  (by decide +kernel) rfl (by decide +kernel) e

example := (kOk_nodup (K := ℚ) (rxns := exMF.rxns) (by decide) (k := [2, 3, 5]) rfl).elim fun κf hf =>
  (kOk_nodup (K := ℚ) (rxns := exMF.rxns) (by decide) (k := [7, 11, 13]) rfl).elim fun κr hr =>
    C11_near_steady exMF _ _ _ exMF_ready exMF_clean (fun _ => 1 / 4) _ _ κf κr hf hr exMF_oneSided (by decide)

example := (kOk_nodup (K := ℚ) (rxns := exMF.rxns) (by decide) (k := [2, 3, 5]) rfl).elim fun κf hf =>
  (kOk_nodup (K := ℚ) (rxns := exMF.rxns) (by decide) (k := [7, 11, 13]) rfl).elim fun κr hr =>
    C27_weighted exMF _ _ _ exMF_ready exMF_clean (fun _ => 1 / 4) _ _ κf κr hf hr exMF_oneSided

end Verif
