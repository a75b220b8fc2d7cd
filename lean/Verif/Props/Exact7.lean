import Verif.Props.Util
import Verif.Props.Coords
import Verif.Props.Checks
import Verif.Props.Exact4
import Verif.Props.Exact6
import Verif.Props.OverfullBound
/-
Exact conditions for C10, C27, C43, C45 and C50; steady states of C133.
-/
namespace Verif
open Dict
set_option linter.unusedSectionVars false

/-- **C43** Splitting and merging gives the sequence back exactly if it has entries, and the same number of them for every process. -/
theorem C43_iff {α : Type} (procs : Nat) (hp : 0 < procs) (seq : List α) : splitMerge procs seq = .ok seq ↔ seq ≠ [] ∧ procs ∣ seq.length := by
  constructor
  · intro h
    have hl : procs ≤ seq.length := by
      by_contra hlt
      have hs := C43_short_refuted procs 0 seq (by omega)
      unfold splitMerge at h
      obtain ⟨n, rfl⟩ : ∃ n, procs = n + 1 := ⟨procs - 1, by omega⟩
      rw [List.range_succ_eq_map, List.mapM_cons, hs] at h
      cases h
    refine ⟨fun e => by rw [e] at hl; simp at hl; omega, ?_⟩
    by_contra hd
    obtain ⟨l, x, tail, h1, h2⟩ := C43_tail_refuted procs seq hl hd
    rw [h] at h1
    have := Except.ok.inj h1
    rw [this] at h2
    have := congrArg List.length h2
    simp at this
  · rintro ⟨h1, h2⟩
    exact C43_roundtrip_partial procs seq h1 h2

example : ([1, 2, 3, 4, 5, 6] : List Nat) ≠ [] ∧ 3 ∣ ([1, 2, 3, 4, 5, 6] : List Nat).length := by decide

/-- **C45** A group with as many elements as coordinates can be moved exactly if it has coordinates. -/
theorem C45_iff {K : Type} [Field K] [LinearOrder K] (s : CStore K) (g : Group) (cs : List (List K)) (es : List Str) (v : List K)
    (hc : s.coords g = .ok cs) (he : s.elems g = .ok es) (hl : cs.length = es.length) (h3 : ∀ c ∈ cs, c.length = 3) (hv : v.length = 3) :
    (∃ s' m, moveG s g (some v) = (s', .ok m) ∧ s'.coords m = .ok (cs.map (translate v)) ∧ s'.elems m = .ok es) ↔ cs ≠ [] := by
  constructor
  · rintro ⟨s', m, h, -⟩ rfl
    rw [C45_empty_refuted s g es (some v) hc he (by rintro w ⟨⟩; exact hv)] at h
    cases h
  · intro hne
    obtain ⟨s', m, h1, h2, h4, -⟩ := C45_move_partial s g cs es v hc he hl hne h3 hv
    exact ⟨s', m, h1, h2, h4⟩

example : let s : CStore ℚ := ⟨[[[0, 0, 0], [1, 2, 3]], []], [[str! "Pt", str! "O_s"], []]⟩
    s.coords ⟨0, 0⟩ = .ok [[0, 0, 0], [1, 2, 3]] ∧ s.elems ⟨0, 0⟩ = .ok [str! "Pt", str! "O_s"] ∧ s.coords ⟨1, 1⟩ = .ok [] ∧ s.elems ⟨1, 1⟩ = .ok [] := by
  decide +kernel

/-- **C50** Which site types are used, exactly: as many as the lattice has sites, all possible; those of the file if there is one, and otherwise all of the first
possible type. -/
theorem C50_iff (o : LatticeOwner) (file : DataFile (List Str)) (l : List Str) :
    constructSitesmap o file = .ok l ↔ o.repetitions ≠ [] ∧ (l.length : Int) = o.repetitions.prod * o.nbasis ∧ (∀ x ∈ l, x ∈ o.siteTypes) ∧
      (file = .data l ∨ ((file = .missing ∨ file = .without) ∧ ∃ t ts, o.siteTypes = t :: ts ∧ ∀ x ∈ l, x = t)) := by
  by_cases hr : o.repetitions = []
  · rw [(C50_empty_refuted o).2 hr file]
    simp [hr]
  · have hn : o.nsite = .ok (o.repetitions.prod * o.nbasis) := nsite_eq hr
    have last : ∀ types : List Str, (if (types.length : Int) ≠ o.repetitions.prod * o.nbasis then (.error .SetupError : Py (List Str))
        else if types.any (fun t => !o.siteTypes.contains t) then .error .SetupError else .ok types) = .ok l ↔
        types = l ∧ (l.length : Int) = o.repetitions.prod * o.nbasis ∧ ∀ x ∈ l, x ∈ o.siteTypes := by
      intro types
      split
      · rename_i h
        refine ⟨fun h' => (nomatch h'), ?_⟩
        rintro ⟨rfl, h', -⟩
        exact absurd h' h
      · rename_i h
        split
        · rename_i h'
          refine ⟨fun h' => (nomatch h'), ?_⟩
          rintro ⟨rfl, -, h''⟩
          obtain ⟨x, hx, hb⟩ := List.any_eq_true.mp h'
          simp [h'' x hx] at hb
        · rename_i h'
          constructor
          · intro e
            cases e
            refine ⟨rfl, not_not.mp h, fun x hx => ?_⟩
            by_contra hb
            exact h' (List.any_eq_true.mpr ⟨x, hx, by simp [hb]⟩)
          · rintro ⟨rfl, -, -⟩
            rfl
    have dflt : (defaultSiteTypes o (o.repetitions.prod * o.nbasis) >>= fun types =>
        if (types.length : Int) ≠ o.repetitions.prod * o.nbasis then (.error .SetupError : Py (List Str))
        else if types.any (fun t => !o.siteTypes.contains t) then .error .SetupError else .ok types) = .ok l ↔
        (l.length : Int) = o.repetitions.prod * o.nbasis ∧ (∀ x ∈ l, x ∈ o.siteTypes) ∧ ∃ t ts, o.siteTypes = t :: ts ∧ ∀ x ∈ l, x = t := by
      unfold defaultSiteTypes
      cases ht : o.siteTypes with
      | nil =>
        constructor
        · intro h; cases h
        · rintro ⟨-, -, t, ts, h, -⟩; cases h
      | cons t ts =>
        rw [ht] at last
        show (if _ then _ else _) = _ ↔ _
        rw [last]
        unfold pyRepeat
        constructor
        · rintro ⟨rfl, h1, h2⟩
          exact ⟨h1, h2, t, ts, rfl, fun x hx => List.eq_of_mem_replicate hx⟩
        · rintro ⟨h1, h2, t', ts', e, h3⟩
          cases e
          refine ⟨?_, h1, h2⟩
          rw [← h1, Int.toNat_natCast]
          exact (List.eq_replicate_iff.mpr ⟨rfl, h3⟩).symm
    unfold constructSitesmap
    rw [hn]
    cases file with
    | data l' =>
      refine (last l').trans ?_
      constructor
      · rintro ⟨rfl, h1, h2⟩
        exact ⟨hr, h1, h2, .inl rfl⟩
      · rintro ⟨-, h1, h2, h3 | ⟨h3 | h3, -⟩⟩
        · cases h3
          exact ⟨rfl, h1, h2⟩
        · cases h3
        · cases h3
    | missing =>
      refine dflt.trans ?_
      constructor
      · rintro ⟨h1, h2, h3⟩
        exact ⟨hr, h1, h2, .inr ⟨.inl rfl, h3⟩⟩
      · rintro ⟨-, h1, h2, h3 | ⟨-, h3⟩⟩
        · cases h3
        · exact ⟨h1, h2, h3⟩
    | without =>
      refine dflt.trans ?_
      constructor
      · rintro ⟨h1, h2, h3⟩
        exact ⟨hr, h1, h2, .inr ⟨.inr rfl, h3⟩⟩
      · rintro ⟨-, h1, h2, h3 | ⟨-, h3⟩⟩
        · cases h3
        · exact ⟨h1, h2, h3⟩

example : constructSitesmap ⟨[2, 2, 1], 1, [str! "top", str! "hcp"], [], []⟩ .missing = .ok (List.replicate 4 (str! "top")) ∧
    constructSitesmap ⟨[2, 1, 1], 1, [str! "top", str! "hcp"], [], []⟩ (.data [str! "hcp", str! "top"]) = .ok [str! "hcp", str! "top"] := by
  decide +kernel

/-- **C10** An element, or a site, is conserved by the rows of the matrices exactly if the formulas without a column hold as much of it in the last state as in the
first. -/
theorem C10_iff (rxns : List Str) (n : Network) (h : parseNetwork rxns = .ok n) (S R : List (List Int)) (hM : n.stoichMatrices = .ok (S, R))
    (i : Nat) (states : List (List Formula)) (is fs : List Formula) (s r : List Int) (hst : n.rxns[i]? = some states)
    (his : states.head? = some is) (hfs : states.getLast? = some fs) (hs : S[i]? = some s) (hr : R[i]? = some r) :
    (∀ e, (List.zipWith (fun a x => a * nameCount e x) s n.siteCols).sum + (List.zipWith (fun a x => a * nameCount e x) r n.reaproCols).sum = 0 ↔
      lostAtoms e fs = lostAtoms e is) ∧
    ∀ t, (List.zipWith (fun a x => a * nameSites t x) s n.siteCols).sum + (List.zipWith (fun a x => a * nameSites t x) r n.reaproCols).sum = 0 ↔
      lostSites t fs = lostSites t is := by
  obtain ⟨h1, h2⟩ := C10_lost rxns n h S R hM i states is fs s r hst his hfs hs hr
  exact ⟨fun e => by rw [h1 e, sub_eq_zero], fun t => by rw [h2 t, sub_eq_zero]⟩

/-- A reaction that ends in a transition state loses two oxygen atoms; one without loses nothing. -/
example : (∃ fs is : List Formula, lostAtoms 'O' fs ≠ lostAtoms 'O' is) ∧ ∃ fs is : List Formula, fs ≠ is ∧ lostAtoms 'O' fs = lostAtoms 'O' is := by
  refine ⟨⟨[⟨str! "CO-O_2s", 1, str! "CO-O", 2, str! "s", str! "CO-O_2s"⟩], [], by decide +kernel⟩,
    ⟨[⟨str! "CO_s", 1, str! "CO", 1, str! "s", str! "CO_s"⟩], [], by decide +kernel, by decide +kernel⟩⟩

variable {K : Type} [Field K] [LinearOrder K] [IsStrictOrderedRing K]

/-- **C27** On every site type the derivatives of its adsorbates and the change of its free sites cancel exactly if the derivatives of the adsorbates that occupy several
sites, weighted with the further sites, add up to zero. -/
theorem C27_iff (o : MFOwner K) (total P C : Str → K) (h : Ready o total P C)
    (hc : ∀ states ∈ o.net.rxns, RateClean states) (v : Str → K) (kf kr : List K) (κf κr : Str → K)
    (hkf : KOk o.rxns kf κf) (hkr : KOk o.rxns kr κr)
    (hone : ∀ a ∈ o.net.ads, ∀ states ∈ o.net.rxns, OneSided a states) :
    ∃ (net : List K) (D : Str → K), getNetRates o (kf, kr) (o.net.ads.map v) = .ok net ∧
      steadyStateFunction o (kf, kr) (o.net.ads.map v) = .ok (o.net.ads.map D) ∧
      ∀ s ∈ o.net.sites, ∃ t, s = str! "*_" ++ t ∧
        (((o.net.ads.filter fun a => OnSite a s).map D).sum + production o.net net s = 0 ↔
          ((o.net.ads.filter fun a => OnSite a s).map fun a => D a * ((nameSites t a : K) - 1)).sum = 0) := by
  obtain ⟨net, D, h1, h2, h3⟩ := C27_weighted o total P C h hc v kf kr κf κr hkf hkr hone
  refine ⟨net, D, h1, h2, fun s hs => ?_⟩
  obtain ⟨t, ht, -, e⟩ := h3 s hs
  exact ⟨t, ht, by rw [e, neg_eq_zero]⟩

example : ∃ net D, getNetRates exMF ([2, 3, 5], [7, 11, 13]) (exMF.net.ads.map fun _ => 1 / 4) = .ok net ∧
    steadyStateFunction exMF ([2, 3, 5], [7, 11, 13]) (exMF.net.ads.map fun _ => 1 / 4) = .ok (exMF.net.ads.map D) := by
  obtain ⟨κf, hf⟩ := kOk_nodup (rxns := exMF.rxns) (k := ([2, 3, 5] : List ℚ)) (by decide) (by decide)
  obtain ⟨κr, hr⟩ := kOk_nodup (rxns := exMF.rxns) (k := ([7, 11, 13] : List ℚ)) (by decide) (by decide)
  obtain ⟨net, D, h1, h2, -⟩ := C27_iff exMF _ _ _ exMF_ready exMF_clean _ _ _ _ _ hf hr exMF_oneSided
  exact ⟨net, D, h1, h2⟩

/-- **C133** Part: steady states of networks in which no reaction needs or frees more than one empty site. If no coverage is negative and every site is needed by a reaction
that could run if the site were empty, no site is over-full. -/
theorem C133_steady_partial (o : MFOwner K) (total P C : Str → K) (h : Ready o total P C) (hc : ∀ states ∈ o.net.rxns, RateClean states)
    (v : Str → K) (kf kr : List K) (hnd : o.rxns.Nodup) (hlf : kf.length = o.rxns.length) (hlr : kr.length = o.rxns.length)
    (hph : NonnegState o P C v kf kr) (hside : ∀ a ∈ o.net.ads, ∀ states ∈ o.net.rxns, OneSided a states)
    (hn : ∀ a ∈ o.net.ads, ∀ f, chemFormula a = .ok f → f.nsite = 1) (hone : ∀ states ∈ o.net.rxns, OneEmptySite states)
    (hsteady : getResidual o (kf, kr) (o.net.ads.map v) = .ok 0)
    (hneed : ∀ s ∈ o.net.sites, ∃ (i : Nat) (states : List (List Formula)) (is : List Formula) (k : K), o.net.rxns[i]? = some states ∧
      states.head? = some is ∧ 0 < totalCoef s is ∧ kf[i]? = some k ∧ 0 < k * restActivity P C (coverage o.net total v) is)
    (s : Str) (hs : s ∈ o.net.sites) : ((o.net.ads.filter fun a => OnSite a s).map v).sum ≤ total s := by
  obtain ⟨i, states, is, k, h1, h2, h3, h4, h5⟩ := hneed s hs
  have := C133_excess_partial o total P C h hc v kf kr hnd hlf hlr hph hside hn hone 0 hsteady s hs i states is k h1 h2 h3 h4
  rw [mul_zero] at this
  by_contra hlt
  exact absurd this (not_le.mpr (mul_pos h5 (by linarith [not_le.mp hlt])))

/-- The steady state of two gases that adsorb on the same sites. -/
def twoAdsSteady (a : Str) : ℚ := if a = str! "CO_s" then 3 / 8 else 4 / 8

example : getResidual twoAdsModel ([3, 4], [2, 1]) (twoAdsModel.net.ads.map twoAdsSteady) = .ok 0 ∧
    NonnegState twoAdsModel (fun g => if g = str! "CO_g" then 2 else 1) (fun _ => 0) twoAdsSteady [3, 4] [2, 1] ∧
    ∀ s ∈ twoAdsModel.net.sites, ∃ (i : Nat) (states : List (List Formula)) (is : List Formula) (k : ℚ), twoAdsModel.net.rxns[i]? = some states ∧
      states.head? = some is ∧ 0 < totalCoef s is ∧ ([3, 4] : List ℚ)[i]? = some k ∧
      0 < k * restActivity (fun g => if g = str! "CO_g" then (2 : ℚ) else 1) (fun _ => 0) (coverage twoAdsModel.net (fun _ => 1) twoAdsSteady) is := by
  refine ⟨by decide +kernel, ⟨by decide +kernel, by decide +kernel, by decide +kernel, by decide +kernel, by decide +kernel⟩, ?_⟩
  have hsites : twoAdsModel.net.sites = [str! "*_s"] := by decide
  intro s hs
  rw [hsites, List.mem_singleton] at hs
  subst hs
  exact ⟨0, _, _, 3, rfl, rfl, by decide +kernel, rfl, by decide +kernel⟩

end Verif
