import Verif.Props.MeanField
import Verif.Props.Failures5
/- C25: exactly which networks have rates. -/
namespace Verif
open Dict

variable {K : Type} [Field K]

/-- The factor of a formula of an accepted network is defined exactly for gases and liquids without a
star, adsorbates, and empty sites written as `*_` and the site; otherwise it is a `KeyError`. -/
theorem evalFactor_iff {o : MFOwner K} {total P C v : Str → K} {env : Env K} (hr : Ready o total P C)
    (he : EnvOk o total P C v env) {f : Formula} (hf : OccursIn o.rxns f) :
    ((∃ x, evalFactor env (factorOf f) = .ok x) → specKind f.species f.site ≠ .ts ∧
      (specKind f.species f.site = .empty → f.species = str! "*" ∧ f.speciesSite = str! "*_" ++ f.site) ∧
      ((specKind f.species f.site = .gas ∨ specKind f.species f.site = .liquid) → '*' ∉ f.speciesSite)) ∧
    (∀ e, evalFactor env (factorOf f) = .error e → e = .KeyError) := by
  obtain ⟨l1, l2, l3⟩ := listed_iff hr.parse hf
  have once := C08_listed_exactly_once _ _ hr.parse f hf
  obtain ⟨ns, gf⟩ := network_good hr.parse f ((mem_flat_iff hr.parse f).mpr hf)
  constructor
  · rintro ⟨x, hx⟩
    rw [factorOf_eq] at hx
    have theta : ∀ n, (∃ x, evalFactor env ⟨.theta, f.speciesSite, n⟩ = .ok x) → f.speciesSite ∈ o.net.siteCols := by
      rintro n ⟨x, hx⟩
      by_contra hn
      have := he.thetaNone _ hn
      simp only [evalFactor, bind, Except.bind, dictGet, this] at hx
      exact nomatch hx
    have hm : ('*' ∈ f.speciesSite ∨ (f.site ≠ ['g'] ∧ f.site ≠ ['l'])) → f.speciesSite ∈ o.net.siteCols := by
      intro h
      refine theta f.stoich ⟨x, ?_⟩
      rcases h with h | ⟨h1, h2⟩
      · rwa [if_pos h] at hx
      · rw [if_neg h1, if_neg h2, ite_self] at hx; exact hx
    have hsite : specKind f.species f.site ≠ .gas → specKind f.species f.site ≠ .liquid → f.site ≠ ['g'] ∧ f.site ≠ ['l'] := by
      intro h1 h2
      constructor
      · intro e; exact h1 (by simp [specKind, e])
      · intro e; exact h2 (by simp [specKind, e])
    refine ⟨fun h => ?_, fun h => ?_, fun h hs => ?_⟩
    · rcases l3 (hm (Or.inr (hsite (by simp [h]) (by simp [h])))) with h' | h' <;> rw [h] at h' <;> cases h'
    · have hmem := hm (Or.inr (hsite (by simp [h]) (by simp [h])))
      unfold Network.siteCols at hmem
      rcases List.mem_append.mp hmem with hmem | hmem
      · obtain ⟨g, hg, -, -, e⟩ := (C08_site_names _ _ hr.parse _).mp hmem
        obtain ⟨ms, gg⟩ := network_good hr.parse g ((mem_flat_iff hr.parse g).mpr hg)
        have e' : f.species ++ '_' :: (ns ++ f.site) = str! "*" ++ '_' :: ([] ++ g.site) := by rw [← gf.name, e]; rfl
        obtain ⟨e1, e2, e3⟩ := name_parts gf.num (by simp) gf.site gg.site e'
        exact ⟨e1, by rw [e, e3]⟩
      · have := ((once .ads).mp hmem).1
        rw [h] at this; cases this
    · rcases l3 (hm (Or.inl hs)) with h' | h' <;> rcases h with h | h <;> rw [h] at h' <;> cases h'
  · intro e h
    unfold evalFactor dictGet at h
    cases hv : (factorOf f).var <;> simp only [hv, bind, Except.bind] at h <;>
      (split at h
       · rename_i heq; split at heq
         · cases heq
         · cases heq; cases h; rfl
       · cases h)

/-- **C25** For distinct reactions and enough rate constants, an accepted network has rates exactly if
no end state has a transition state, no gas or liquid has a star in its name, and empty sites are
written as a star and the site alone; every other network raises a `KeyError`. -/
theorem C25_defined_iff (o : MFOwner K) (total P C : Str → K) (h : Ready o total P C) (v : Str → K) (kf kr : List K)
    (hnd : o.rxns.Nodup) (hf : kf.length = o.rxns.length) (hk : kr.length = o.rxns.length) :
    ((∃ r, getRates o (kf, kr) (o.net.ads.map v) = .ok r) ↔ ∀ states ∈ o.net.rxns, RateClean states) ∧
    ((¬ ∀ states ∈ o.net.rxns, RateClean states) → getRates o (kf, kr) (o.net.ads.map v) = .error .KeyError) := by
  obtain ⟨env, he1, hef, her, he2⟩ := mkEnv_ok h v (kf, kr)
  have hts : ∃ ts, o.rxns.mapM (rateTerms o) = .ok ts := by
    apply mapM_ok_exists
    intro rxn hx
    obtain ⟨i, hi, rfl⟩ := List.mem_iff_getElem.mp hx
    obtain ⟨st, is, fs, e1, -, -, e4, e5, -⟩ := states_ok h.parse hi
    exact ⟨_, rateTerms_ok h.parse hi e1 e4 e5⟩
  obtain ⟨ts, hts⟩ := hts
  obtain ⟨tl, tg⟩ := mapM_ok_inv hts
  have hrun : getRates o (kf, kr) (o.net.ads.map v) = (do
      let rfs ← ts.mapM fun t => evalTerm env t.1
      let rrs ← ts.mapM fun t => evalTerm env t.2
      pure (rfs, rrs)) := by
    unfold getRates
    rw [he1, hts]
    rfl
  -- the terms belong to the end states
  have hterm : ∀ i (hi : i < o.rxns.length), ∃ states is fs, o.net.rxns[i]? = some states ∧ states.head? = some is ∧
      states.getLast? = some fs ∧ (∀ f ∈ is, OccursIn o.rxns f) ∧ (∀ f ∈ fs, OccursIn o.rxns f) ∧
      ts[i]? = some (⟨1, true, o.rxns.idxOf o.rxns[i], is.map factorOf⟩, ⟨1, false, o.rxns.idxOf o.rxns[i], fs.map factorOf⟩) := by
    intro i hi
    obtain ⟨st, is, fs, e1, e2, -, e4, e5, o1, o2⟩ := states_ok h.parse hi
    refine ⟨st, is, fs, e2, e4, e5, o1, o2, ?_⟩
    have ht := tg i hi (by omega)
    rw [rateTerms_ok h.parse hi e1 e4 e5] at ht
    rw [List.getElem?_eq_getElem (by omega), ← Except.ok.inj ht]
  have hidx : ∀ i (hi : i < o.rxns.length), o.rxns.idxOf o.rxns[i] = i := fun i hi => hnd.idxOf_getElem i hi
  -- errors of terms
  have hterr : ∀ (i : Nat) (hi : i < o.rxns.length) (b : Bool) (fs : List Formula), (∀ f ∈ fs, OccursIn o.rxns f) → ∀ e,
      evalTerm env ⟨1, b, o.rxns.idxOf o.rxns[i], fs.map factorOf⟩ = .error e → e = .KeyError := by
    intro i hi b fs hocc e herr
    unfold evalTerm at herr
    dsimp only at herr
    rw [hidx i hi] at herr
    have hl : i < (if b then env.kf else env.kr).length := by
      cases b <;> simp [hef, her, hf, hk, hi]
    rw [List.getElem?_eq_getElem hl] at herr
    simp only [bind, Except.bind] at herr
    split at herr
    · rename_i e' he'
      cases herr
      obtain ⟨x, hx, hxe⟩ := mapM_error_mem he'
      obtain ⟨f, hfm, rfl⟩ := List.mem_map.mp hx
      exact (evalFactor_iff h he2 (hocc f hfm)).2 _ hxe
    · cases herr
  have herr : ∀ e, getRates o (kf, kr) (o.net.ads.map v) = .error e → e = .KeyError := by
    intro e hE
    rw [hrun] at hE
    have mem : ∀ t ∈ ts, ∃ i, ∃ _ : i < o.rxns.length, ∃ is fs : List Formula, (∀ f ∈ is, OccursIn o.rxns f) ∧ (∀ f ∈ fs, OccursIn o.rxns f) ∧
        t = (⟨1, true, o.rxns.idxOf o.rxns[i], is.map factorOf⟩, ⟨1, false, o.rxns.idxOf o.rxns[i], fs.map factorOf⟩) := by
      intro t ht
      obtain ⟨i, hi, rfl⟩ := List.mem_iff_getElem.mp ht
      obtain ⟨st, is, fs, -, -, -, o1, o2, e6⟩ := hterm i (by omega)
      rw [List.getElem?_eq_getElem hi] at e6
      exact ⟨i, by omega, is, fs, o1, o2, Option.some.inj e6⟩
    cases h1 : ts.mapM fun t => evalTerm env t.1 with
    | error e1 =>
      rw [h1] at hE
      cases hE
      obtain ⟨t, ht, hte⟩ := mapM_error_mem h1
      obtain ⟨i, hi, is, fs, o1, o2, rfl⟩ := mem t ht
      exact hterr i hi true is o1 _ hte
    | ok rfs =>
      rw [h1] at hE
      cases h2 : ts.mapM fun t => evalTerm env t.2 with
      | error e2 =>
        rw [h2] at hE
        cases hE
        obtain ⟨t, ht, hte⟩ := mapM_error_mem h2
        obtain ⟨i, hi, is, fs, o1, o2, rfl⟩ := mem t ht
        exact hterr i hi false fs o2 _ hte
      | ok rrs => rw [h2] at hE; exact nomatch hE
  have hiff : (∃ r, getRates o (kf, kr) (o.net.ads.map v) = .ok r) ↔ ∀ states ∈ o.net.rxns, RateClean states := by
    constructor
    · rintro ⟨r, hr⟩ states hst
      rw [hrun] at hr
      obtain ⟨rfs, h1, hr⟩ := bind_ok.mp hr
      obtain ⟨rrs, h2, hr⟩ := bind_ok.mp hr
      obtain ⟨i, hi, rfl⟩ := List.mem_iff_getElem.mp hst
      have hi' : i < o.rxns.length := by rw [← length_rxns h.parse]; exact hi
      obtain ⟨st, is, fs, e1, e2, e3, o1, o2, e6⟩ := hterm i hi'
      rw [List.getElem?_eq_getElem hi] at e1
      have e1 := Option.some.inj e1
      rw [e1]
      have ht := List.mem_of_getElem? e6
      obtain ⟨x, -, hx⟩ := (mapM_ok_mem h1).2 _ ht
      obtain ⟨y, -, hy⟩ := (mapM_ok_mem h2).2 _ ht
      have fac : ∀ (b : Bool) (j : Nat) (l : List Formula) (x : K), evalTerm env ⟨1, b, j, l.map factorOf⟩ = .ok x →
          ∀ f ∈ l, ∃ z, evalFactor env (factorOf f) = .ok z := by
        intro b j l x hx f hfm
        unfold evalTerm at hx
        dsimp only at hx
        split at hx
        · obtain ⟨k, -, hx⟩ := bind_ok.mp hx
          obtain ⟨xs, hxs, -⟩ := bind_ok.mp hx
          obtain ⟨z, -, hz⟩ := (mapM_ok_mem hxs).2 _ (List.mem_map.mpr ⟨f, hfm, rfl⟩)
          exact ⟨z, hz⟩
        · exact nomatch hx
      have main : ∀ gs, (st.head? = some gs ∨ st.getLast? = some gs) → ∀ f ∈ gs, specKind f.species f.site ≠ .ts ∧
          (specKind f.species f.site = .empty → f.species = str! "*" ∧ f.speciesSite = str! "*_" ++ f.site) ∧
          ((specKind f.species f.site = .gas ∨ specKind f.species f.site = .liquid) → '*' ∉ f.speciesSite) := by
        intro gs hgs f hfm
        rcases hgs with hgs | hgs
        · rw [e2] at hgs; cases hgs
          exact (evalFactor_iff h he2 (o1 f hfm)).1 (fac _ _ _ _ hx f hfm)
        · rw [e3] at hgs; cases hgs
          exact (evalFactor_iff h he2 (o2 f hfm)).1 (fac _ _ _ _ hy f hfm)
      exact ⟨⟨fun gs hgs f hfm => ⟨(main gs hgs f hfm).1, fun he => ((main gs hgs f hfm).2.1 he).1⟩,
        fun gs hgs f hfm he => ((main gs hgs f hfm).2.1 he).2⟩, fun gs hgs f hfm => (main gs hgs f hfm).2.2⟩
    · intro hc
      obtain ⟨rfs, rrs, h1, -⟩ := C25_mass_action_partial o total P C h hc v kf kr hnd hf hk
      exact ⟨_, h1⟩
  refine ⟨hiff, fun hn => ?_⟩
  cases hg : getRates o (kf, kr) (o.net.ads.map v) with
  | ok r => exact absurd (hiff.mp ⟨r, hg⟩) hn
  | error e => rw [herr e hg]

example := C25_defined_iff exMF _ _ _ exMF_ready (fun _ => 1 / 4) [2, 3, 5] [7, 11, 13] (by decide) rfl rfl

-- A network that is accepted and has no rates.
example : ∃ n, parseNetwork [str! "CO_s + O_s -> CO-O_2s"] = .ok n ∧
    Ready (⟨[str! "CO_s + O_s -> CO-O_2s"], n, [(str! "*_s", 1)], [], []⟩ : MFOwner ℚ) (fun _ => 1) (fun _ => 1) (fun _ => 1) := by
  refine ⟨netOf [str! "CO_s + O_s -> CO-O_2s"], by decide, by decide, ?_, ?_, ?_⟩ <;> decide +kernel

end Verif
