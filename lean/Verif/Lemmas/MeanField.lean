import Verif.Model.MeanField
import Verif.Lemmas.Py
import Verif.Props.Network
import Mathlib.Tactic.Linarith
import Mathlib.Algebra.BigOperators.Group.List.Basic
/-
Facts about the coverage dictionary and the evaluation of rate terms.
-/
namespace Verif
open Dict
set_option linter.unusedSectionVars false

theorem dictGet_ok {ν : Type} {d : Dict Str ν} {k : Str} {v : ν} :
    dictGet d k = .ok v ↔ get? d k = some v := by
  unfold dictGet
  cases get? d k <;> simp

theorem get?_setDefault {ν : Type} (d : Dict Str ν) (k j : Str) (v : ν) :
    get? (setDefault d k v) j = if k = j then some ((get? d k).getD v) else get? d j := by
  unfold setDefault
  cases h : get? d k with
  | none =>
    dsimp only
    rw [get?_set]
    split <;> simp
  | some w =>
    dsimp only
    split
    · rename_i e; subst e; simp [h]
    · rfl

/-- Site type of an adsorbate name. -/
def OnSite (a s : Str) : Prop := siteNameOf a = .ok s

instance (a s : Str) : Decidable (OnSite a s) := inferInstanceAs (Decidable (_ = _))

theorem classifyFrom_ok (d : Dict Str (List Str)) (as : List Str)
    (h : ∀ a ∈ as, ∃ s, OnSite a s ∧ (get? d s).isSome) :
    ∃ d', classifyFrom d as = .ok d' ∧
      ∀ s, get? d' s = (get? d s).map (· ++ as.filter (fun a => OnSite a s)) := by
  induction as generalizing d with
  | nil => exact ⟨d, rfl, fun s => by cases get? d s <;> simp⟩
  | cons a as ih =>
    obtain ⟨s, hs, hd⟩ := h a (by simp)
    obtain ⟨l, hl⟩ := Option.isSome_iff_exists.mp hd
    obtain ⟨d', h1, h2⟩ := ih (Dict.set d s (l ++ [a])) (by
      intro b hb
      obtain ⟨t, ht, hdt⟩ := h b (by simp [hb])
      refine ⟨t, ht, ?_⟩
      rw [get?_set]
      split
      · rfl
      · exact hdt)
    refine ⟨d', ?_, ?_⟩
    · unfold classifyFrom
      rw [show siteNameOf a = .ok s from hs]
      simp only [bind, Except.bind, dictGet_ok.mpr hl]
      exact h1
    · intro t
      rw [h2 t, get?_set]
      by_cases e : s = t
      · subst e
        simp [hl, hs]
      · have : ¬ OnSite a t := by
          intro ht
          unfold OnSite at hs ht
          rw [hs] at ht
          exact e (by simpa using ht)
        simp [e, this]

theorem get?_foldl_setDefault (ss : List Str) (d : Dict Str (List Str)) (s : Str)
    (hd : ∀ t v, get? d t = some v → v = []) :
    get? (ss.foldl (fun d s => setDefault d s []) d) s
      = if s ∈ ss then some [] else get? d s := by
  induction ss generalizing d with
  | nil => simp
  | cons t ss ih =>
    rw [List.foldl_cons, ih]
    · rw [get?_setDefault]
      by_cases h1 : s ∈ ss
      · simp [h1]
      · by_cases h2 : t = s
        · subst h2
          cases h3 : get? d t with
          | none => simp
          | some v => simp [hd t v h3]
        · have : ¬ s = t := fun e => h2 e.symm
          simp [h1, h2, this]
    · intro u v huv
      rw [get?_setDefault] at huv
      by_cases h2 : t = u
      · rw [if_pos h2] at huv
        cases h3 : get? d t with
        | none => simpa [h3] using huv.symm
        | some w => rw [h3] at huv; simp at huv; rw [← huv]; exact hd t w h3
      · rw [if_neg h2] at huv
        exact hd u v huv

/-- Every adsorbate of a parsed network lies on one of its sites. -/
theorem ads_onSite {rxns : List Str} {n : Network} (h : parseNetwork rxns = .ok n) {a : Str}
    (ha : a ∈ n.ads) : ∃ s ∈ n.sites, OnSite a s := by
  obtain ⟨f, hf, hk, rfl⟩ := (mem_names_iff h .ads (by decide) a).mp ha
  obtain ⟨ns, gf⟩ := network_good h f ((mem_flat_iff h f).mpr hf)
  refine ⟨'*' :: '_' :: f.site, ?_, ?_⟩
  · rw [C08_site_names _ _ h]
    refine ⟨f, hf, ?_, ?_, rfl⟩
    · intro e; simp [specKind, e] at hk
    · intro e; simp [specKind, e] at hk
  · unfold OnSite siteNameOf
    rw [gf.reparse]
    rfl

theorem classifyAds_ok {rxns : List Str} {n : Network} (h : parseNetwork rxns = .ok n) :
    ∃ d, classifyAds n = .ok d ∧
      ∀ s, get? d s = if s ∈ n.sites then some (n.ads.filter (fun a => OnSite a s)) else none := by
  have h0 : ∀ s, get? (n.sites.foldl (fun d s => setDefault d s ([] : List Str)) []) s
      = if s ∈ n.sites then some [] else none := by
    intro s
    rw [get?_foldl_setDefault _ _ _ (by intro t v hv; simp [get?] at hv)]
    rfl
  obtain ⟨d', h1, h2⟩ := classifyFrom_ok (n.sites.foldl (fun d s => setDefault d s []) []) n.ads (by
    intro a ha
    obtain ⟨s, hs, hon⟩ := ads_onSite h ha
    exact ⟨s, hon, by rw [h0]; simp [hs]⟩)
  refine ⟨d', h1, ?_⟩
  intro s
  rw [h2, h0]
  split <;> simp

variable {K : Type} [Field K]

theorem adsCoverages_ok (names : List Str) (v : Str → K) (d : Dict Str K) (as : List Str)
    (has : ∀ a ∈ as, a ∈ names) :
    ∃ d', adsCoverages names (names.map v) d as = .ok d' ∧
      ∀ x, get? d' x = match get? d x with
        | some c => some c
        | none => if x ∈ as then some (v x) else none := by
  induction as generalizing d with
  | nil => exact ⟨d, rfl, fun x => by cases get? d x <;> simp⟩
  | cons a as ih =>
    obtain ⟨d', h1, h2⟩ := ih (setDefault d a (v a)) (fun b hb => has b (by simp [hb]))
    refine ⟨d', ?_, ?_⟩
    · unfold adsCoverages
      have hlt : names.idxOf a < names.length := List.idxOf_lt_length_of_mem (has a (by simp))
      have : (names.map v)[names.idxOf a]? = some (v a) := by
        rw [List.getElem?_map, List.getElem?_eq_getElem hlt, List.getElem_idxOf]; rfl
      rw [this]
      exact h1
    · intro x
      rw [h2, get?_setDefault]
      by_cases e : a = x
      · subst e
        cases hd : get? d a <;> simp
      · have : ¬ x = a := fun h => e h.symm
        simp [e, this]

theorem mapM_dictGet {d : Dict Str K} {v : Str → K} {l : List Str} (h : ∀ x ∈ l, get? d x = some (v x)) :
    l.mapM (dictGet d) = .ok (l.map v) := by
  induction l with
  | nil => rfl
  | cons a l ih =>
    rw [List.mapM_cons, dictGet_ok.mpr (h a (by simp)), ih (fun x hx => h x (by simp [hx]))]
    rfl

theorem freeSites_ok (totals : Dict Str K) (cls : Dict Str (List Str)) (ads : List Str) (v total : Str → K)
    (d : Dict Str K) (ss : List Str)
    (hss : ss.Nodup) (hdis : ∀ s ∈ ss, s ∉ ads) (hnew : ∀ s ∈ ss, get? d s = none)
    (hads : ∀ a ∈ ads, get? d a = some (v a))
    (htot : ∀ s ∈ ss, get? totals s = some (total s))
    (hcls : ∀ s ∈ ss, get? cls s = some (ads.filter (fun a => OnSite a s))) :
    ∃ d', freeSites totals cls d ss = .ok d' ∧
      ∀ x, get? d' x = if x ∈ ss then some (total x - ((ads.filter (fun a => OnSite a x)).map v).sum)
        else get? d x := by
  induction ss generalizing d with
  | nil => exact ⟨d, rfl, fun x => by simp⟩
  | cons s ss ih =>
    rw [List.nodup_cons] at hss
    have hm : (ads.filter (fun a => OnSite a s)).mapM (dictGet d)
        = .ok ((ads.filter (fun a => OnSite a s)).map v) :=
      mapM_dictGet fun x hx => hads x (List.mem_filter.mp hx).1
    obtain ⟨d', h1, h2⟩ := ih (setDefault d s (total s - ((ads.filter (fun a => OnSite a s)).map v).sum))
      hss.2 (fun t ht => hdis t (by simp [ht]))
      (fun t ht => by
        rw [get?_setDefault, if_neg (fun e : s = t => hss.1 (e ▸ ht))]
        exact hnew t (by simp [ht]))
      (fun a ha => by
        rw [get?_setDefault, if_neg (fun e : s = a => hdis s (by simp) (e ▸ ha))]
        exact hads a ha)
      (fun t ht => htot t (by simp [ht])) (fun t ht => hcls t (by simp [ht]))
    refine ⟨d', ?_, ?_⟩
    · unfold freeSites
      simp only [bind, Except.bind, dictGet_ok.mpr (htot s (by simp)), dictGet_ok.mpr (hcls s (by simp)), hm]
      exact h1
    · intro x
      rw [h2, get?_setDefault]
      by_cases hx : x ∈ ss
      · simp [hx]
      · by_cases e : s = x
        · subst e
          simp [hx, hnew s (by simp)]
        · have : ¬ x = s := fun h => e h.symm
          simp [hx, e, this]

/-- A model whose data are complete: the network is the one of the reactions, and every site, gas
and liquid has its number. -/
structure Ready (o : MFOwner K) (total P C : Str → K) : Prop where
  parse : parseNetwork o.rxns = .ok o.net
  totals : ∀ s ∈ o.net.sites, get? o.totals s = some (total s)
  pressures : ∀ g ∈ o.net.gas, get? o.pressures g = some (P g)
  concs : ∀ g ∈ o.net.liq, get? o.concs g = some (C g)

/-- The coverage of a name: given for adsorbates, the rest of the total for free sites. -/
def coverage (n : Network) (total v : Str → K) (x : Str) : K :=
  if x ∈ n.ads then v x else total x - ((n.ads.filter (fun a => OnSite a x)).map v).sum

theorem sites_disjoint {rxns : List Str} {n : Network} (h : parseNetwork rxns = .ok n) :
    ∀ s ∈ n.sites, s ∉ n.ads := by
  have := siteCols_nodup h
  unfold Network.siteCols at this
  rw [List.nodup_append] at this
  intro s hs ha
  exact this.2.2 s hs s ha rfl

theorem cvgTuple2Dict_ok {o : MFOwner K} {total P C : Str → K} (h : Ready o total P C) (v : Str → K) :
    ∃ d, cvgTuple2Dict o (o.net.ads.map v) = .ok d ∧
      (∀ x, x ∈ o.net.siteCols → get? d x = some (coverage o.net total v x)) ∧
      (∀ x, x ∉ o.net.siteCols → get? d x = none) := by
  obtain ⟨cls, hc1, hc2⟩ := classifyAds_ok h.parse
  obtain ⟨d1, ha1, ha2⟩ := adsCoverages_ok o.net.ads v [] o.net.ads (fun a ha => ha)
  have hdis := sites_disjoint h.parse
  obtain ⟨d2, hf1, hf2⟩ := freeSites_ok o.totals cls o.net.ads v total d1 o.net.sites
    (C08_lists_sorted _ _ h.parse).2.2 hdis
    (fun s hs => by rw [ha2]; simp [get?, hdis s hs])
    (fun a ha => by rw [ha2]; simp [get?, ha])
    h.totals (fun s hs => by rw [hc2, if_pos hs])
  refine ⟨d2, ?_, ?_, ?_⟩
  · unfold cvgTuple2Dict
    simp only [bind, Except.bind, hc1, ha1]
    exact hf1
  · intro x hx
    rw [hf2]
    unfold coverage
    rcases List.mem_append.mp hx with hs | ha
    · rw [if_pos hs, if_neg (hdis x hs)]
    · have : x ∉ o.net.sites := fun hs => hdis x hs ha
      rw [if_neg this, if_pos ha, ha2]
      simp [get?, ha]
  · intro x hx
    unfold Network.siteCols at hx
    rw [List.mem_append, not_or] at hx
    rw [hf2, if_neg hx.1, ha2]
    simp [get?, hx.2]

theorem mapM_pair {d : Dict Str K} {P : Str → K} {l : List Str} (h : ∀ x ∈ l, get? d x = some (P x)) :
    (l.mapM fun g => do pure (g, ← dictGet d g) : Py (Dict Str K)) = .ok (l.map fun g => (g, P g)) := by
  induction l with
  | nil => rfl
  | cons a l ih =>
    rw [List.mapM_cons, ih (fun x hx => h x (by simp [hx]))]
    simp only [bind, Except.bind, dictGet_ok.mpr (h a (by simp))]
    rfl

theorem get?_map_pair {P : Str → K} {l : List Str} {x : Str} (hx : x ∈ l) :
    get? (l.map fun g => (g, P g)) x = some (P x) := by
  induction l with
  | nil => simp at hx
  | cons a l ih =>
    simp only [List.map_cons, get?]
    by_cases e : a = x
    · subst e; simp
    · rw [if_neg e]
      exact ih (by
        rcases List.mem_cons.mp hx with h | h
        · exact absurd h.symm e
        · exact h)

theorem get?_map_pair_none {P : Str → K} {l : List Str} {x : Str} (hx : x ∉ l) :
    get? (l.map fun g => (g, P g)) x = none := by
  rw [get?_eq_none]
  simpa [keys] using hx

/-- The environment gives each listed name its number. -/
structure EnvOk (o : MFOwner K) (total P C v : Str → K) (env : Env K) : Prop where
  theta : ∀ x ∈ o.net.siteCols, get? env.theta x = some (coverage o.net total v x)
  thetaNone : ∀ x, x ∉ o.net.siteCols → get? env.theta x = none
  p : ∀ g ∈ o.net.gas, get? env.p g = some (P g)
  c : ∀ g ∈ o.net.liq, get? env.c g = some (C g)

theorem mkEnv_ok {o : MFOwner K} {total P C : Str → K} (h : Ready o total P C) (v : Str → K)
    (k : List K × List K) :
    ∃ env, mkEnv o k (o.net.ads.map v) = .ok env ∧ env.kf = k.1 ∧ env.kr = k.2 ∧ EnvOk o total P C v env := by
  obtain ⟨d, h1, h2, h3⟩ := cvgTuple2Dict_ok h v
  have hg : getData o = .ok (o.net.gas.map (fun g => (g, P g)), o.net.liq.map (fun g => (g, C g))) := by
    unfold getData
    rw [mapM_pair h.pressures, mapM_pair h.concs]
    rfl
  refine ⟨⟨k.1, k.2, d, o.net.gas.map (fun g => (g, P g)), o.net.liq.map (fun g => (g, C g))⟩, ?_, ?_, ?_, ?_⟩
  · unfold mkEnv
    rw [h1, hg]
    rfl
  · rfl
  · rfl
  · exact ⟨h2, h3, fun g hg => get?_map_pair hg, fun g hg => get?_map_pair hg⟩

/-- End states whose factors are all defined: no transition state, stars for plain empty sites
only. -/
def RateClean (states : List (List Formula)) : Prop :=
  CleanSites states ∧ ∀ fs, (states.head? = some fs ∨ states.getLast? = some fs) → ∀ f ∈ fs,
    (specKind f.species f.site = .gas ∨ specKind f.species f.site = .liquid) → '*' ∉ f.speciesSite

/-- Activity of the species of a formula: pressure, concentration or coverage. -/
def specAct (P C θ : Str → K) (f : Formula) : K :=
  match specKind f.species f.site with
  | .gas => P f.speciesSite
  | .liquid => C f.speciesSite
  | _ => θ f.speciesSite

/-- Product of the activities of a state, each to the power of its coefficient. -/
def stateActivity (P C θ : Str → K) (fs : List Formula) : K :=
  (fs.map fun f => specAct P C θ f ^ f.stoich).prod

theorem factorOf_eq (f : Formula) : factorOf f =
    if '*' ∈ f.speciesSite then ⟨.theta, f.speciesSite, f.stoich⟩
    else if f.site = ['g'] then ⟨.p, f.speciesSite, f.stoich⟩
    else if f.site = ['l'] then ⟨.c, f.speciesSite, f.stoich⟩
    else ⟨.theta, f.speciesSite, f.stoich⟩ := by
  unfold factorOf Formula.type
  by_cases h0 : '*' ∈ f.speciesSite
  · simp [h0]
  · by_cases h1 : f.site = ['g']
    · simp [h0, h1]
    · by_cases h2 : f.site = ['l'] <;> simp [h0, h1, h2]

theorem evalFactor_ok {o : MFOwner K} {total P C v : Str → K} {env : Env K} (hr : Ready o total P C)
    (he : EnvOk o total P C v env) {f : Formula} (hf : OccursIn o.rxns f)
    (h1 : specKind f.species f.site ≠ .ts)
    (h2 : specKind f.species f.site = .empty → f.speciesSite = str! "*_" ++ f.site)
    (h3 : (specKind f.species f.site = .gas ∨ specKind f.species f.site = .liquid) → '*' ∉ f.speciesSite) :
    evalFactor env (factorOf f) = .ok (specAct P C (coverage o.net total v) f ^ f.stoich) := by
  obtain ⟨l1, l2, -⟩ := listed_iff hr.parse hf
  have once := C08_listed_exactly_once _ _ hr.parse f hf
  obtain ⟨ns, gf⟩ := network_good hr.parse f ((mem_flat_iff hr.parse f).mpr hf)
  rw [factorOf_eq]
  cases hk : specKind f.species f.site with
  | gas =>
    have hs : f.site = ['g'] := by
      unfold specKind at hk
      by_contra hne
      rw [if_neg hne] at hk
      split at hk
      · cases hk
      · split at hk
        · cases hk
        · split at hk <;> cases hk
    have hm : f.speciesSite ∈ o.net.gas := (once .gas).mpr ⟨hk, by decide⟩
    rw [if_neg (h3 (Or.inl hk)), if_pos hs]
    simp only [evalFactor, bind, Except.bind, dictGet_ok.mpr (he.p _ hm), specAct, hk]
    rfl
  | liquid =>
    have hs : f.site ≠ ['g'] ∧ f.site = ['l'] := by
      unfold specKind at hk
      by_cases h0 : f.site = ['g']
      · rw [if_pos h0] at hk; cases hk
      · refine ⟨h0, ?_⟩
        rw [if_neg h0] at hk
        by_contra hne
        rw [if_neg hne] at hk
        split at hk
        · cases hk
        · split at hk <;> cases hk
    have hm : f.speciesSite ∈ o.net.liq := (once .liquid).mpr ⟨hk, by decide⟩
    rw [if_neg (h3 (Or.inr hk)), if_neg hs.1, if_pos hs.2]
    simp only [evalFactor, bind, Except.bind, dictGet_ok.mpr (he.c _ hm), specAct, hk]
    rfl
  | ts => exact absurd hk h1
  | ads =>
    have hm : f.speciesSite ∈ o.net.siteCols := l2 hk
    have hne : f.site ≠ ['g'] ∧ f.site ≠ ['l'] := by
      constructor <;> intro e <;> simp [specKind, e] at hk
    rw [if_neg hne.1, if_neg hne.2, ite_self]
    simp only [evalFactor, bind, Except.bind, dictGet_ok.mpr (he.theta _ hm), specAct, hk]
    rfl
  | empty =>
    have hne : f.site ≠ str! "g" ∧ f.site ≠ str! "l" := by
      constructor <;> intro e <;> simp [specKind, e] at hk
    have hm : f.speciesSite ∈ o.net.siteCols := by
      unfold Network.siteCols
      rw [List.mem_append, C08_site_names _ _ hr.parse]
      exact Or.inl ⟨f, hf, hne.1, hne.2, h2 hk⟩
    rw [if_neg hne.1, if_neg hne.2, ite_self]
    simp only [evalFactor, bind, Except.bind, dictGet_ok.mpr (he.theta _ hm), specAct, hk]
    rfl

theorem mapM_ok_map {α β : Type} {f : α → Py β} {g : α → β} {l : List α} (h : ∀ x ∈ l, f x = .ok (g x)) :
    l.mapM f = .ok (l.map g) := by
  induction l with
  | nil => rfl
  | cons a l ih =>
    rw [List.mapM_cons, h a (by simp), ih (fun x hx => h x (by simp [hx]))]
    rfl

/-- Evaluation of the term of an end state. -/
theorem evalTerm_ok {o : MFOwner K} {total P C v : Str → K} {env : Env K} (hr : Ready o total P C)
    (he : EnvOk o total P C v env) {states : List (List Formula)} (hc : RateClean states)
    {fs : List Formula} (hfs : states.head? = some fs ∨ states.getLast? = some fs)
    (hocc : ∀ f ∈ fs, OccursIn o.rxns f) (n i : Nat) (b : Bool) (κ : K)
    (hk : (if b then env.kf else env.kr)[i]? = some κ) :
    evalTerm env ⟨n, b, i, fs.map factorOf⟩
      = .ok ((n : K) * (κ * stateActivity P C (coverage o.net total v) fs)) := by
  have hm : (fs.map factorOf).mapM (evalFactor env)
      = .ok (fs.map fun f => specAct P C (coverage o.net total v) f ^ f.stoich) := by
    rw [List.mapM_map]
    apply mapM_ok_map
    intro f hf
    exact evalFactor_ok hr he (hocc f hf) (hc.1.1 fs hfs f hf).1 (hc.1.2 fs hfs f hf) (hc.2 fs hfs f hf)
  unfold evalTerm
  simp only [hk, hm, bind, Except.bind]
  rw [stateActivity, mul_assoc]
  rfl

/-! ### all reactions of a network -/

theorem idxOf_getElem?_same {l : List Str} {i : Nat} (hi : i < l.length) :
    l.idxOf l[i] < l.length ∧ l[l.idxOf l[i]]? = some l[i] := by
  have h : l.idxOf l[i] < l.length := List.idxOf_lt_length_of_mem (List.getElem_mem _)
  exact ⟨h, by rw [List.getElem?_eq_getElem h, List.getElem_idxOf]⟩

/-- The states of reaction `i`, and the states found through the first occurrence of its text. -/
theorem states_ok {rxns : List Str} {n : Network} (h : parseNetwork rxns = .ok n) {i : Nat}
    (hi : i < rxns.length) : ∃ states is fs, eqnFormulas rxns[i] = .ok states ∧
      n.rxns[i]? = some states ∧ n.rxns[rxns.idxOf rxns[i]]? = some states ∧
      states.head? = some is ∧ states.getLast? = some fs ∧
      (∀ f ∈ is, OccursIn rxns f) ∧ (∀ f ∈ fs, OccursIn rxns f) := by
  obtain ⟨h1, -⟩ := parseNetwork_ok h
  obtain ⟨hlen, hget⟩ := mapM_ok_inv h1
  have hp := hget i hi (by omega)
  obtain ⟨hi', hs⟩ := idxOf_getElem?_same hi
  have hp' := hget _ hi' (by omega)
  rw [List.getElem_idxOf] at hp'
  obtain ⟨is, fs, e1, e2, -⟩ := parseRxn_ends hp
  have heq := (parseRxn_ok.mp hp).2
  refine ⟨_, is, fs, heq, List.getElem?_eq_getElem (by omega), ?_, e1, e2, ?_, ?_⟩
  · rw [List.getElem?_eq_getElem (by omega)]
    have := (parseRxn_ok.mp hp').2
    rw [heq] at this
    rw [Except.ok.inj this]
  · intro f hf
    exact ⟨_, List.getElem_mem hi, _, heq, is, List.mem_of_head? e1, hf⟩
  · intro f hf
    exact ⟨_, List.getElem_mem hi, _, heq, fs, List.mem_of_getLast? e2, hf⟩

theorem rateTerms_ok {o : MFOwner K} (h : parseNetwork o.rxns = .ok o.net) {i : Nat} (hi : i < o.rxns.length)
    {states : List (List Formula)} {is fs : List Formula}
    (hs : eqnFormulas o.rxns[i] = .ok states) (h1 : states.head? = some is) (h2 : states.getLast? = some fs) :
    rateTerms o o.rxns[i] = .ok (⟨1, true, o.rxns.idxOf o.rxns[i], is.map factorOf⟩,
      ⟨1, false, o.rxns.idxOf o.rxns[i], fs.map factorOf⟩) := by
  obtain ⟨st, is', fs', e1, e2, e3, e4, e5, -⟩ := states_ok h hi
  rw [hs] at e1
  cases e1
  rw [h1] at e4; rw [h2] at e5
  cases e4; cases e5
  unfold rateTerms
  rw [if_neg (by simp), e3]
  simp only [h1, h2]

/-- Rate constants that agree for repeated reaction texts and exist for all reactions. -/
structure KOk (rxns : List Str) (k : List K) (κ : Str → K) : Prop where
  get : ∀ i (h : i < rxns.length), k[i]? = some (κ rxns[i])

/-- Forward and reverse rate of the reaction with the given states. -/
def rateOf (P C θ : Str → K) (k : K) (st : Option (List Formula)) : K :=
  match st with
  | some fs => k * stateActivity P C θ fs
  | none => 0

theorem length_rxns {rxns : List Str} {n : Network} (h : parseNetwork rxns = .ok n) :
    n.rxns.length = rxns.length := (mapM_ok_inv (parseNetwork_ok h).1).1

theorem clean_at {o : MFOwner K} (hc : ∀ states ∈ o.net.rxns, RateClean states) {i : Nat}
    {states : List (List Formula)} (h : o.net.rxns[i]? = some states) : RateClean states :=
  hc states (List.mem_of_getElem? h)

theorem getRates_ok {o : MFOwner K} {total P C : Str → K} (hr : Ready o total P C)
    (hc : ∀ states ∈ o.net.rxns, RateClean states) (v : Str → K) (kf kr : List K) (κf κr : Str → K)
    (hkf : KOk o.rxns kf κf) (hkr : KOk o.rxns kr κr) :
    ∃ rfs rrs, getRates o (kf, kr) (o.net.ads.map v) = .ok (rfs, rrs) ∧
      rfs.length = o.rxns.length ∧ rrs.length = o.rxns.length ∧
      ∀ i (hi : i < o.rxns.length) states is fs, eqnFormulas o.rxns[i] = .ok states →
        states.head? = some is → states.getLast? = some fs →
        rfs[i]? = some (κf o.rxns[i] * stateActivity P C (coverage o.net total v) is) ∧
        rrs[i]? = some (κr o.rxns[i] * stateActivity P C (coverage o.net total v) fs) := by
  obtain ⟨env, he1, hef, her, he2⟩ := mkEnv_ok hr v (kf, kr)
  have hts : ∃ ts, o.rxns.mapM (rateTerms o) = .ok ts := by
    apply mapM_ok_exists
    intro rxn hx
    obtain ⟨i, hi, rfl⟩ := List.mem_iff_getElem.mp hx
    obtain ⟨st, is, fs, e1, -, -, e4, e5, -⟩ := states_ok hr.parse hi
    exact ⟨_, rateTerms_ok hr.parse hi e1 e4 e5⟩
  obtain ⟨ts, hts⟩ := hts
  obtain ⟨tl, tg⟩ := mapM_ok_inv hts
  have key : ∀ i (hi : i < o.rxns.length) states is fs, eqnFormulas o.rxns[i] = .ok states →
      states.head? = some is → states.getLast? = some fs →
      evalTerm env (ts[i]'(by omega)).1 = .ok (κf o.rxns[i] * stateActivity P C (coverage o.net total v) is) ∧
      evalTerm env (ts[i]'(by omega)).2 = .ok (κr o.rxns[i] * stateActivity P C (coverage o.net total v) fs) := by
    intro i hi states is fs hs h1 h2
    obtain ⟨st, is', fs', e1, e2, e3, e4, e5, o1, o2⟩ := states_ok hr.parse hi
    rw [hs] at e1; cases e1
    rw [h1] at e4; rw [h2] at e5; cases e4; cases e5
    have ht := tg i hi (by omega)
    rw [rateTerms_ok hr.parse hi hs h1 h2] at ht
    have ht := Except.ok.inj ht
    obtain ⟨hi', -⟩ := idxOf_getElem?_same hi
    have kf' := hkf.get _ hi'
    have kr' := hkr.get _ hi'
    rw [List.getElem_idxOf] at kf' kr'
    rw [← ht]
    have a1 := evalTerm_ok hr he2 (clean_at hc e2) (Or.inl h1) o1 1 (o.rxns.idxOf o.rxns[i]) true _
      (by simpa [hef] using kf')
    have a2 := evalTerm_ok hr he2 (clean_at hc e2) (Or.inr h2) o2 1 (o.rxns.idxOf o.rxns[i]) false _
      (by simpa [her] using kr')
    rw [Nat.cast_one, one_mul] at a1 a2
    exact ⟨a1, a2⟩
  have hf : ∃ rfs, ts.mapM (fun t => evalTerm env t.1) = .ok rfs := by
    apply mapM_ok_exists
    intro t ht
    obtain ⟨i, hi, rfl⟩ := List.mem_iff_getElem.mp ht
    obtain ⟨st, is, fs, e1, -, -, e4, e5, -⟩ := states_ok hr.parse (i := i) (by omega)
    exact ⟨_, (key i (by omega) st is fs e1 e4 e5).1⟩
  have hrv : ∃ rrs, ts.mapM (fun t => evalTerm env t.2) = .ok rrs := by
    apply mapM_ok_exists
    intro t ht
    obtain ⟨i, hi, rfl⟩ := List.mem_iff_getElem.mp ht
    obtain ⟨st, is, fs, e1, -, -, e4, e5, -⟩ := states_ok hr.parse (i := i) (by omega)
    exact ⟨_, (key i (by omega) st is fs e1 e4 e5).2⟩
  obtain ⟨rfs, hf⟩ := hf
  obtain ⟨rrs, hrv⟩ := hrv
  obtain ⟨lf, gf⟩ := mapM_ok_inv hf
  obtain ⟨lr, gr⟩ := mapM_ok_inv hrv
  refine ⟨rfs, rrs, ?_, by omega, by omega, ?_⟩
  · unfold getRates
    rw [he1, hts]
    simp only [bind, Except.bind, hf, hrv]
    rfl
  · intro i hi states is fs hs h1 h2
    obtain ⟨k1, k2⟩ := key i hi states is fs hs h1 h2
    have g1 := gf i (by omega) (by omega)
    have g2 := gr i (by omega) (by omega)
    rw [k1] at g1; rw [k2] at g2
    exact ⟨by rw [List.getElem?_eq_getElem (by omega), ← Except.ok.inj g1],
      by rw [List.getElem?_eq_getElem (by omega), ← Except.ok.inj g2]⟩

/-- The signed number with which the code lets a reaction change an adsorbate: from its first
occurrence. -/
def codeCoef (a : Str) (states : List (List Formula)) : Int :=
  match findAds a states with
  | none => 0
  | some (0, n) => -(n : Int)
  | some (_ + 1, n) => n

theorem sum_flatMap {α : Type} (l : List α) (f : α → List K) : (l.flatMap f).sum = (l.map fun x => (f x).sum).sum := by
  induction l with
  | nil => rfl
  | cons a l ih => simp [ih]

theorem mapM_append_ok {α β : Type} {f : α → Py β} {l m : List α} {k j : List β} (h1 : l.mapM f = .ok k)
    (h2 : m.mapM f = .ok j) : (l ++ m).mapM f = .ok (k ++ j) := by
  rw [List.mapM_append, h1, h2]; rfl

theorem evalPoly_flat {env : Env K} {α : Type} (l : List α) (q : α → Poly) (x : α → K)
    (h : ∀ a ∈ l, evalPoly env (q a) = .ok (x a)) : evalPoly env (l.flatMap q) = .ok ((l.map x).sum) := by
  induction l with
  | nil => rfl
  | cons a l ih =>
    have h1 := h a (by simp)
    have h2 := ih fun b hb => h b (by simp [hb])
    unfold evalPoly at h1 h2 ⊢
    rw [bind_ok] at h1 h2
    obtain ⟨xs, e1, e2⟩ := h1
    obtain ⟨ys, e3, e4⟩ := h2
    rw [List.flatMap_cons, bind_ok]
    refine ⟨xs ++ ys, mapM_append_ok e1 e3, ?_⟩
    rw [pure_ok] at *
    rw [List.sum_append, e2, e4, List.map_cons, List.sum_cons]

/-- Evaluation of the equation of one adsorbate. -/
theorem adsorbate_ok {o : MFOwner K} {total P C : Str → K} (hr : Ready o total P C)
    (hc : ∀ states ∈ o.net.rxns, RateClean states) (v : Str → K) (κf κr : Str → K) {env : Env K}
    (hkf : KOk o.rxns env.kf κf) (hkr : KOk o.rxns env.kr κr) (he2 : EnvOk o total P C v env)
    {a : Str} (ha : a ∈ o.net.ads) (rf rr : Nat → K)
    (hrate : ∀ i (hi : i < o.rxns.length) states is fs, eqnFormulas o.rxns[i] = .ok states →
        states.head? = some is → states.getLast? = some fs →
        rf i = κf o.rxns[i] * stateActivity P C (coverage o.net total v) is ∧
        rr i = κr o.rxns[i] * stateActivity P C (coverage o.net total v) fs)
    (co : Nat → Int)
    (hco : ∀ i states, o.net.rxns[i]? = some states → co i = codeCoef a states) :
    ∃ q, adsorbateDtheta o a = .ok q ∧
      evalPoly env q = .ok (((List.range o.rxns.length).map fun i => (co i : K) * (rf i - rr i)).sum) := by
  have single : ∀ i (hi : i < o.rxns.length), ∃ x, elementaryDtheta o a o.rxns[i] = .ok x ∧
      evalPoly env (match x with
        | none => []
        | some (inc, dec) => [(true, inc), (false, dec)]) = .ok ((co i : K) * (rf i - rr i)) := by
    intro i hi
    obtain ⟨st, is, fs, e1, e2, e3, e4, e5, o1, o2⟩ := states_ok hr.parse hi
    obtain ⟨h1, h2⟩ := hrate i hi st is fs e1 e4 e5
    obtain ⟨hi', -⟩ := idxOf_getElem?_same hi
    have kf' := hkf.get _ hi'
    have kr' := hkr.get _ hi'
    rw [List.getElem_idxOf] at kf' kr'
    have t1 := fun n => evalTerm_ok hr he2 (clean_at hc e2) (Or.inl e4) o1 n (o.rxns.idxOf o.rxns[i]) true _
      (by simpa using kf')
    have t2 := fun n => evalTerm_ok hr he2 (clean_at hc e2) (Or.inr e5) o2 n (o.rxns.idxOf o.rxns[i]) false _
      (by simpa using kr')
    rw [hco i st e2]
    unfold elementaryDtheta codeCoef
    rw [if_neg (by simpa using ha), e1]
    simp only [bind, Except.bind]
    cases hfa : findAds a st with
    | none =>
      refine ⟨none, rfl, ?_⟩
      simp [evalPoly, bind, Except.bind, pure, Except.pure]
    | some x =>
      obtain ⟨j, n⟩ := x
      simp only [rateTerms_ok hr.parse hi e1 e4 e5]
      cases j with
      | zero =>
        refine ⟨_, rfl, ?_⟩
        simp only [evalPoly, List.mapM_cons, List.mapM_nil, t1, t2, bind, Except.bind, pure, Except.pure,
          ← h1, ← h2]
        congr 1
        simp
        ring
      | succ j =>
        refine ⟨_, rfl, ?_⟩
        simp only [evalPoly, List.mapM_cons, List.mapM_nil, t1, t2, bind, Except.bind, pure, Except.pure,
          ← h1, ← h2]
        congr 1
        simp
        ring
  have hall : ∃ l, o.rxns.mapM (elementaryDtheta o a) = .ok l := by
    apply mapM_ok_exists
    intro rxn hx
    obtain ⟨i, hi, rfl⟩ := List.mem_iff_getElem.mp hx
    obtain ⟨x, hx, -⟩ := single i hi
    exact ⟨x, hx⟩
  obtain ⟨l, hl⟩ := hall
  obtain ⟨ll, lg⟩ := mapM_ok_inv hl
  refine ⟨_, by unfold adsorbateDtheta; rw [hl]; rfl, ?_⟩
  have hrange : l = (List.range o.rxns.length).map fun i => (l[i]?).getD none := by
    apply List.ext_getElem
    · simp [ll]
    · intro i h1 h2
      simp [List.getElem?_eq_getElem h1]
  rw [hrange, List.flatMap_map]
  apply evalPoly_flat
  intro i hi
  have hi := List.mem_range.mp hi
  obtain ⟨x, hx, hv⟩ := single i hi
  have := lg i hi (by omega)
  rw [hx] at this
  rw [List.getElem?_eq_getElem (by omega), ← Except.ok.inj this]
  exact hv

end Verif
