import Verif.Lemmas.Network
/-
Properties C08-C10: species lists and stoichiometry matrices.
-/
namespace Verif
open Dict

/-! ## C08 classification -/

/-- A formula of some state of some reaction of the list. -/
def OccursIn (rxns : List Str) (f : Formula) : Prop :=
  ∃ s ∈ rxns, ∃ fss, eqnFormulas s = .ok fss ∧ ∃ fs ∈ fss, f ∈ fs

/-- The independent reading of the naming rule: gas and liquid by the site, otherwise
transition states contain a dash, empty sites a star, everything else is an adsorbate. -/
inductive SpecKind | gas | liquid | ts | ads | empty
  deriving DecidableEq, Repr

def specKind (species site : Str) : SpecKind :=
  if site = str! "g" then .gas
  else if site = str! "l" then .liquid
  else if species.contains '-' then .ts
  else if species.contains '*' then .empty
  else .ads

def Network.names (n : Network) : SpecKind → List Str
  | .gas => n.gas
  | .liquid => n.liq
  | .ts => n.ts
  | .ads => n.ads
  | .empty => []

theorem mem_flat_iff {rxns : List Str} {n : Network} (h : parseNetwork rxns = .ok n) (f : Formula) :
    f ∈ n.rxns.flatten.flatten ↔ OccursIn rxns f := by
  obtain ⟨h1, -⟩ := parseNetwork_ok h
  obtain ⟨h2, h3⟩ := mapM_ok_mem h1
  simp only [List.mem_flatten, OccursIn]
  constructor
  · rintro ⟨fs, ⟨fss, hfss, hfs⟩, hf⟩
    obtain ⟨s, hs, hp⟩ := h2 fss hfss
    exact ⟨s, hs, fss, (parseRxn_ok.mp hp).2, fs, hfs, hf⟩
  · rintro ⟨s, hs, fss, he, fs, hfs, hf⟩
    obtain ⟨fss', hfss', hp⟩ := h3 s hs
    rw [(parseRxn_ok.mp hp).2] at he
    cases he
    exact ⟨fs, ⟨fss, hfss', hfs⟩, hf⟩

theorem classify_specKind (f : Formula) : classify f = match specKind f.species f.site with
    | .gas => some .gas | .liquid => some .liquid | .ts => some .ts | .ads => some .ads
    | .empty => none := by
  rw [classify_eq]
  unfold specKind
  simp only [List.contains_iff_mem]
  split
  · rfl
  · split
    · rfl
    · split
      · rfl
      · by_cases h : '*' ∈ f.species <;> simp [h]

theorem mem_names_iff {rxns : List Str} {n : Network} (h : parseNetwork rxns = .ok n)
    (k : SpecKind) (hk : k ≠ .empty) (x : Str) :
    x ∈ n.names k ↔ ∃ f, OccursIn rxns f ∧ specKind f.species f.site = k ∧ f.speciesSite = x := by
  obtain ⟨-, h1, h2, h3, -, h5⟩ := parseNetwork_ok h
  have key : ∀ kk : Kind, (∀ f, classify f = some kk ↔ specKind f.species f.site = k) →
      (x ∈ namesOf kk n.rxns.flatten.flatten ↔
        ∃ f, OccursIn rxns f ∧ specKind f.species f.site = k ∧ f.speciesSite = x) := by
    intro kk hkk
    rw [mem_namesOf]
    constructor
    · rintro ⟨f, hf, hc, rfl⟩
      exact ⟨f, (mem_flat_iff h f).mp hf, (hkk f).mp hc, rfl⟩
    · rintro ⟨f, hf, hc, rfl⟩
      exact ⟨f, (mem_flat_iff h f).mpr hf, (hkk f).mpr hc, rfl⟩
  cases k with
  | empty => exact absurd rfl hk
  | gas =>
    show x ∈ n.gas ↔ _
    rw [h2]; apply key; intro f; rw [classify_specKind]; cases specKind f.species f.site <;> simp
  | liquid =>
    show x ∈ n.liq ↔ _
    rw [h3]; apply key; intro f; rw [classify_specKind]; cases specKind f.species f.site <;> simp
  | ts =>
    show x ∈ n.ts ↔ _
    rw [h5]; apply key; intro f; rw [classify_specKind]; cases specKind f.species f.site <;> simp
  | ads =>
    show x ∈ n.ads ↔ _
    rw [h1]; apply key; intro f; rw [classify_specKind]; cases specKind f.species f.site <;> simp

/-- Each list holds exactly the names of its class that occur in some state; in particular every
species that is not an empty site is listed. -/
theorem C08_lists_complete (rxns : List Str) (n : Network) (h : parseNetwork rxns = .ok n)
    (k : SpecKind) (hk : k ≠ .empty) (x : Str) :
    x ∈ n.names k ↔ ∃ f, OccursIn rxns f ∧ specKind f.species f.site = k ∧ f.speciesSite = x :=
  mem_names_iff h k hk x

/-- Every formula that occurs is listed in exactly one list, the one of its class, or in none if
it is an empty site. -/
theorem C08_listed_exactly_once (rxns : List Str) (n : Network) (h : parseNetwork rxns = .ok n)
    (f : Formula) (hf : OccursIn rxns f) (k : SpecKind) :
    f.speciesSite ∈ n.names k ↔ specKind f.species f.site = k ∧ k ≠ .empty := by
  by_cases hk : k = .empty
  · subst hk; simp [Network.names]
  · rw [mem_names_iff h k hk]
    constructor
    · rintro ⟨g, hg, hgk, he⟩
      refine ⟨?_, hk⟩
      obtain ⟨_, gf⟩ := network_good h f ((mem_flat_iff h f).mpr hf)
      obtain ⟨_, gg⟩ := network_good h g ((mem_flat_iff h g).mpr hg)
      obtain ⟨e1, e2, -⟩ := gg.unique gf he
      rw [← e1, ← e2]; exact hgk
    · rintro ⟨hfk, -⟩
      exact ⟨f, hf, hfk, rfl⟩

/-- The site list holds exactly the surface sites in use. -/
theorem C08_site_names (rxns : List Str) (n : Network) (h : parseNetwork rxns = .ok n) (x : Str) :
    x ∈ n.sites ↔ ∃ f, OccursIn rxns f ∧ f.site ≠ str! "g" ∧ f.site ≠ str! "l" ∧
      x = str! "*_" ++ f.site := by
  obtain ⟨-, -, -, -, h4, -⟩ := parseNetwork_ok h
  rw [h4, mem_siteNamesOf]
  constructor
  · rintro ⟨f, hf, h1, h2, rfl⟩
    exact ⟨f, (mem_flat_iff h f).mp hf, h1, h2, rfl⟩
  · rintro ⟨f, hf, h1, h2, rfl⟩
    exact ⟨f, (mem_flat_iff h f).mpr hf, h1, h2, rfl⟩

/-- All lists are strictly increasing, hence sorted and free of duplicates. -/
theorem lists_sorted (rxns : List Str) (n : Network) (h : parseNetwork rxns = .ok n) :
    (∀ k, (n.names k).Pairwise (fun a b => strLt a b = true) ∧ (n.names k).Nodup) ∧
    n.sites.Pairwise (fun a b => strLt a b = true) ∧ n.sites.Nodup := by
  obtain ⟨-, h1, h2, h3, h4, h5⟩ := parseNetwork_ok h
  have hs : ∀ l : List Str, StrSorted (sortedSet l) ∧ (sortedSet l).Nodup := fun l =>
    ⟨sorted_sortedSet l, (sorted_sortedSet l).nodup⟩
  refine ⟨?_, ?_⟩
  · intro k
    cases k
    · show StrSorted n.gas ∧ n.gas.Nodup; rw [h2]; exact hs _
    · show StrSorted n.liq ∧ n.liq.Nodup; rw [h3]; exact hs _
    · show StrSorted n.ts ∧ n.ts.Nodup; rw [h5]; exact hs _
    · show StrSorted n.ads ∧ n.ads.Nodup; rw [h1]; exact hs _
    · exact ⟨List.Pairwise.nil, List.nodup_nil⟩
  · rw [h4]; exact hs _

/-- All lists are strictly increasing in the order of their texts, hence free of duplicates. -/
theorem C08_lists_sorted (rxns : List Str) (n : Network) (h : parseNetwork rxns = .ok n) :
    (∀ k, (n.names k).Pairwise Before ∧ (n.names k).Nodup) ∧ n.sites.Pairwise Before ∧ n.sites.Nodup := by
  obtain ⟨h1, h2, h3⟩ := lists_sorted rxns n h
  have conv : ∀ {l : List Str}, l.Pairwise (fun a b => strLt a b = true) → l.Pairwise Before :=
    fun hl => hl.imp (fun {a b} hab => (strLt_iff_before a b).mp hab)
  exact ⟨fun k => ⟨conv (h1 k).1, (h1 k).2⟩, conv h2, h3⟩

/-- The order in which the reactions are given does not matter. -/
theorem C08_order_independent (rxns rxns' : List Str) (hp : rxns.Perm rxns') (n : Network)
    (h : parseNetwork rxns = .ok n) :
    ∃ n', parseNetwork rxns' = .ok n' ∧ (∀ k, n'.names k = n.names k) ∧ n'.sites = n.sites ∧
      n.rxns.Perm n'.rxns := by
  obtain ⟨h1, -⟩ := parseNetwork_ok h
  obtain ⟨l', hl', hperm⟩ := mapM_ok_perm hp h1
  obtain ⟨n', hn'⟩ : ∃ n', parseNetwork rxns' = .ok n' := by
    unfold parseNetwork; rw [hl']; exact ⟨_, rfl⟩
  refine ⟨n', hn', ?_, ?_, ?_⟩
  · intro k
    by_cases hk : k = .empty
    · subst hk; rfl
    · apply StrSorted.ext ((lists_sorted _ _ hn').1 k).1 ((lists_sorted _ _ h).1 k).1
      intro x
      rw [mem_names_iff hn' k hk, mem_names_iff h k hk]
      simp only [OccursIn, hp.mem_iff]
  · apply StrSorted.ext (lists_sorted _ _ hn').2.1 (lists_sorted _ _ h).2.1
    intro x
    rw [C08_site_names _ _ hn', C08_site_names _ _ h]
    simp only [OccursIn, hp.mem_iff]
  · have := (parseNetwork_ok hn').1
    rw [hl'] at this
    cases this
    exact hperm

/-- CO oxidation. -/
def exRxns : List Str :=
  [str! "CO_g + *_s -> CO_s", str! "O2_g + 2*_s -> 2O_s", str! "CO_s + O_s <-> CO-O_2s -> CO2_g + 2*_s"]
def exNet : Network :=
  match parseNetwork exRxns with
  | .ok n => n
  | .error _ => ⟨[], [], [], [], [], []⟩
theorem exNet_ok : parseNetwork exRxns = .ok exNet := by decide
example : exNet.names .gas = [str! "CO2_g", str! "CO_g", str! "O2_g"] ∧
    exNet.names .ads = [str! "CO_s", str! "O_s"] ∧ exNet.names .ts = [str! "CO-O_2s"] ∧
    exNet.sites = [str! "*_s"] ∧ exNet.names .liquid = [] := by decide

/-! ## C09 stoichiometry matrices -/

/-- The total coefficient of a name in a list of formulas. -/
def totalCoef (x : Str) (fs : List Formula) : Nat :=
  ((fs.filter fun f => f.speciesSite = x).map (·.stoich)).sum

theorem siteCols_nodup {rxns : List Str} {n : Network} (h : parseNetwork rxns = .ok n) :
    n.siteCols.Nodup := by
  unfold Network.siteCols
  rw [List.nodup_append]
  refine ⟨(lists_sorted _ _ h).2.2, ((lists_sorted _ _ h).1 .ads).2, ?_⟩
  intro a ha b hb e
  subst e
  obtain ⟨f, -, -, -, hfx⟩ := (C08_site_names _ _ h a).mp ha
  obtain ⟨g, hg, hk, hgx⟩ := (mem_names_iff h .ads (by decide) a).mp hb
  obtain ⟨ms, gg⟩ := network_good h g ((mem_flat_iff h g).mpr hg)
  rw [gg.name, hfx] at hgx
  have hsp : g.species.contains '*' = true := by
    cases hsp : g.species with
    | nil => rw [hsp] at hgx; simp at hgx
    | cons c cs =>
      rw [hsp] at hgx
      simp only [List.cons_append, List.cons.injEq] at hgx
      simp [hgx.1]
  unfold specKind at hk
  rw [hsp] at hk
  simp only [if_true] at hk
  split at hk
  · cases hk
  · split at hk
    · cases hk
    · split at hk <;> cases hk

theorem reaproCols_nodup {rxns : List Str} {n : Network} (h : parseNetwork rxns = .ok n) :
    n.reaproCols.Nodup := by
  unfold Network.reaproCols
  rw [List.nodup_append]
  refine ⟨((lists_sorted _ _ h).1 .gas).2, ((lists_sorted _ _ h).1 .liquid).2, ?_⟩
  intro a ha b hb e
  subst e
  obtain ⟨f, hf, hfk, hfx⟩ := (mem_names_iff h .gas (by decide) a).mp ha
  have := (C08_listed_exactly_once _ _ h f hf .liquid).mp (by rw [hfx]; exact hb)
  rw [hfk] at this
  exact absurd this.1 (by decide)

/-- The matrices exist, have one row per reaction and one column per name, and each entry is the
total coefficient in the first state minus that in the last state. -/
theorem C09_entries (rxns : List Str) (n : Network) (h : parseNetwork rxns = .ok n) :
    ∃ S R, n.stoichMatrices = .ok (S, R) ∧ S.length = rxns.length ∧ R.length = rxns.length ∧
      ∀ i (hi : i < rxns.length), ∃ is fs fss, eqnFormulas rxns[i] = .ok fss ∧
        fss.head? = some is ∧ fss.getLast? = some fs ∧
        ∃ s r, S[i]? = some s ∧ R[i]? = some r ∧ s.length = n.siteCols.length ∧
          r.length = n.reaproCols.length ∧
          (∀ (j : Nat) (x : Str), n.siteCols[j]? = some x → s[j]? = some ((totalCoef x is : Int) - totalCoef x fs)) ∧
          (∀ (j : Nat) (x : Str), n.reaproCols[j]? = some x → r[j]? = some ((totalCoef x is : Int) - totalCoef x fs)) := by
  obtain ⟨h1, -⟩ := parseNetwork_ok h
  obtain ⟨hlen, hget⟩ := mapM_ok_inv h1
  have hrow : ∀ names : List Str, ∃ M, n.rxns.mapM (stoichRow names) = .ok M := by
    intro names
    apply mapM_ok_exists
    intro fss hfss
    obtain ⟨s, -, hs⟩ := (mapM_ok_mem h1).1 fss hfss
    obtain ⟨is, fs, e1, e2, -⟩ := parseRxn_ends hs
    exact ⟨_, stoichRow_ok e1 e2⟩
  obtain ⟨S, hS⟩ := hrow n.siteCols
  obtain ⟨R, hR⟩ := hrow n.reaproCols
  obtain ⟨lS, gS⟩ := mapM_ok_inv hS
  obtain ⟨lR, gR⟩ := mapM_ok_inv hR
  refine ⟨S, R, ?_, by omega, by omega, ?_⟩
  · unfold Network.stoichMatrices; rw [hS, hR]; rfl
  · intro i hi
    have hp := hget i hi (by omega)
    obtain ⟨is, fs, e1, e2, -⟩ := parseRxn_ends hp
    refine ⟨is, fs, _, (parseRxn_ok.mp hp).2, e1, e2, S[i]'(by omega), R[i]'(by omega),
      List.getElem?_eq_getElem _, List.getElem?_eq_getElem _, ?_⟩
    have key : ∀ (names : List Str) (row : List Int), names.Nodup →
        stoichRow names (n.rxns[i]'(by omega)) = .ok row →
        row.length = names.length ∧
        ∀ (j : Nat) (x : Str), names[j]? = some x → row[j]? = some ((totalCoef x is : Int) - totalCoef x fs) := by
      intro names row hnd hr
      rw [stoichRow_ok e1 e2] at hr
      cases hr
      have hl : (addState names 1 is (List.replicate names.length 0)).length = names.length := by
        rw [length_addState]; simp
      refine ⟨by rw [length_addState, hl], ?_⟩
      intro j x hx
      obtain ⟨hj, rfl⟩ := List.getElem?_eq_some_iff.mp hx
      rw [List.getElem?_eq_getElem (by rw [length_addState, hl]; exact hj)]
      rw [getElem_addState hnd _ _ hl hj, getElem_addState hnd _ _ (by simp) hj]
      simp only [List.getElem_replicate, coefIn, totalCoef]
      congr 1
      ring
    obtain ⟨a1, a2⟩ := key n.siteCols _ (siteCols_nodup h) (gS i (by omega) (by omega))
    obtain ⟨b1, b2⟩ := key n.reaproCols _ (reaproCols_nodup h) (gR i (by omega) (by omega))
    exact ⟨a1, b1, a2, b2⟩

/-- A listed species that does not take part in a reaction has entry zero. -/
theorem C09_not_taking_part (x : Str) (fs : List Formula) (h : ∀ f ∈ fs, f.speciesSite ≠ x) :
    totalCoef x fs = 0 := by
  unfold totalCoef
  have : fs.filter (fun f => f.speciesSite = x) = [] := by
    rw [List.filter_eq_nil_iff]; intro f hf; simpa using h f hf
  rw [this]; rfl

example : exNet.stoichMatrices = .ok
    ([[1, -1, 0], [2, 0, -2], [-2, 1, 1]], [[0, 1, 0], [0, 0, 1], [-1, 0, 0]]) := by decide

/-! ## C10 the matrices conserve elements and sites -/

/-- Number of atoms `e` in the species called `x`. -/
def nameCount (e : Char) (x : Str) : Int :=
  match chemFormula x with
  | .ok f => (val (speciesElements f.species) e : Int)
  | .error _ => 0

/-- Number of surface sites of type `t` occupied by the species called `x`. -/
def nameSites (t : Str) (x : Str) : Int :=
  match chemFormula x with
  | .ok f => if f.site = t ∧ t ≠ str! "g" ∧ t ≠ str! "l" then (f.nsite : Int) else 0
  | .error _ => 0

/-- The weights are what the specification says about the species. -/
theorem C10_weights_match_specification (f : Spec.Formula) (h : f.ok = true) (e : Char) (t : Str) :
    nameCount e f.speciesSite = f.sp.count e ∧
    nameSites t f.speciesSite =
      if f.site = t ∧ t ≠ str! "g" ∧ t ≠ str! "l" then (f.nsite : Int) else 0 := by
  have hp : (⟨none, f.sp, f.num, f.site⟩ : Spec.Formula).ok = true := h
  have h1 := chemFormula_ofSpec hp
  have h2 : (⟨none, f.sp, f.num, f.site⟩ : Spec.Formula).text = f.speciesSite := rfl
  rw [h2] at h1
  simp only [nameCount, nameSites, h1]
  refine ⟨?_, rfl⟩
  have := val_speciesElements (formula_ok_parts h).1 e
  simpa [ofSpec] using this

theorem nameCount_good {f : Formula} {ns : Str} (hf : Good f ns) (e : Char) :
    nameCount e f.speciesSite = (val (speciesElements f.species) e : Int) := by
  simp [nameCount, hf.reparse]

theorem nameSites_good {f : Formula} {ns : Str} (hf : Good f ns) (t : Str) :
    nameSites t f.speciesSite =
      if f.site = t ∧ t ≠ str! "g" ∧ t ≠ str! "l" then (f.nsite : Int) else 0 := by
  simp [nameSites, hf.reparse]

/-- Where the formulas of an end state are listed. -/
theorem listed_iff {rxns : List Str} {n : Network} (h : parseNetwork rxns = .ok n) {f : Formula}
    (hf : OccursIn rxns f) :
    (f.speciesSite ∈ n.reaproCols ↔
      specKind f.species f.site = .gas ∨ specKind f.species f.site = .liquid) ∧
    (specKind f.species f.site = .ads → f.speciesSite ∈ n.siteCols) ∧
    (f.speciesSite ∈ n.siteCols →
      specKind f.species f.site = .ads ∨ specKind f.species f.site = .empty) := by
  have once := C08_listed_exactly_once _ _ h f hf
  refine ⟨?_, ?_, ?_⟩
  · unfold Network.reaproCols
    rw [List.mem_append]
    have a := once .gas
    have b := once .liquid
    simp only [Network.names] at a b
    rw [a, b]; simp
  · intro hk
    unfold Network.siteCols
    rw [List.mem_append]
    right
    exact (once .ads).mpr ⟨hk, by decide⟩
  · intro hm
    unfold Network.siteCols at hm
    rcases List.mem_append.mp hm with hm | hm
    · right
      obtain ⟨g, hg, h1, h2, hx⟩ := (C08_site_names _ _ h _).mp hm
      obtain ⟨ns, gf⟩ := network_good h f ((mem_flat_iff h f).mpr hf)
      obtain ⟨ms, gg⟩ := network_good h g ((mem_flat_iff h g).mpr hg)
      rw [gf.name] at hx
      obtain ⟨e1, -, e3⟩ := name_parts (sp' := ['*']) (ms := []) (t := g.site) gf.num (by simp)
        gf.site gg.site hx
      have h1' : f.site ≠ str! "g" := by rw [e3]; exact h1
      have h2' : f.site ≠ str! "l" := by rw [e3]; exact h2
      simp [specKind, e1, h1', h2']
    · left
      exact ((once .ads).mp hm).1

/-- End states with no transition state and with the star used for empty sites only. -/
def CleanEnds (states : List (List Formula)) : Prop :=
  ∀ fs, (states.head? = some fs ∨ states.getLast? = some fs) → ∀ f ∈ fs,
    specKind f.species f.site ≠ .ts ∧
    (specKind f.species f.site = .empty → f.species = str! "*")

/-- In addition, empty sites are written without a number of sites. -/
def CleanSites (states : List (List Formula)) : Prop :=
  CleanEnds states ∧ ∀ fs, (states.head? = some fs ∨ states.getLast? = some fs) → ∀ f ∈ fs,
    specKind f.species f.site = .empty → f.speciesSite = str! "*_" ++ f.site

theorem sum_int_cast (l : List Nat) : ((l.sum : Nat) : Int) = (l.map (fun x : Nat => (x : Int))).sum := by
  induction l with
  | nil => rfl
  | cons a l ih => simp [ih]

/-- The conservation law behind C10: for any weight of the names that vanishes on the unlisted
formulas of a state, the two column groups together give the total weight of the state. -/
theorem stateSum_total {rxns : List Str} {n : Network} (h : parseNetwork rxns = .ok n)
    {fs : List Formula} (w : Str → Int) (wf : Formula → Int)
    (hocc : ∀ f ∈ fs, OccursIn rxns f)
    (hts : ∀ f ∈ fs, specKind f.species f.site ≠ .ts)
    (hw : ∀ f ∈ fs, w f.speciesSite = wf f)
    (hempty : ∀ f ∈ fs, specKind f.species f.site = .empty →
      f.speciesSite ∈ n.siteCols ∨ wf f = 0) :
    stateSum n.siteCols w fs + stateSum n.reaproCols w fs
      = (fs.map fun f => (f.stoich : Int) * wf f).sum := by
  induction fs with
  | nil => rfl
  | cons f fs ih =>
    have ih := ih (fun g hg => hocc g (by simp [hg])) (fun g hg => hts g (by simp [hg]))
      (fun g hg => hw g (by simp [hg])) (fun g hg => hempty g (by simp [hg]))
    obtain ⟨l1, l2, l3⟩ := listed_iff h (hocc f (by simp))
    have hwf := hw f (by simp)
    have key : (if f.speciesSite ∈ n.siteCols then (f.stoich : Int) * w f.speciesSite else 0) +
        (if f.speciesSite ∈ n.reaproCols then (f.stoich : Int) * w f.speciesSite else 0)
        = (f.stoich : Int) * wf f := by
      rw [hwf]
      have h1 := hts f (by simp)
      have h2 := hempty f (by simp)
      cases hk : specKind f.species f.site with
      | gas =>
        have a : f.speciesSite ∈ n.reaproCols := l1.mpr (Or.inl hk)
        have b : f.speciesSite ∉ n.siteCols := fun hm => by
          rcases l3 hm with e | e <;> rw [hk] at e <;> cases e
        simp [a, b]
      | liquid =>
        have a : f.speciesSite ∈ n.reaproCols := l1.mpr (Or.inr hk)
        have b : f.speciesSite ∉ n.siteCols := fun hm => by
          rcases l3 hm with e | e <;> rw [hk] at e <;> cases e
        simp [a, b]
      | ts => exact absurd hk h1
      | ads =>
        have a : f.speciesSite ∈ n.siteCols := l2 hk
        have b : f.speciesSite ∉ n.reaproCols := fun hm => by
          rcases l1.mp hm with e | e <;> rw [hk] at e <;> cases e
        simp [a, b]
      | empty =>
        have b : f.speciesSite ∉ n.reaproCols := fun hm => by
          rcases l1.mp hm with e | e <;> rw [hk] at e <;> cases e
        rcases h2 hk with a | a
        · simp [a, b]
        · simp [a, b]
    simp only [stateSum, List.map_cons, List.sum_cons] at ih ⊢
    rw [← key, ← ih]
    ring

/-- For every reaction with clean end states and every element, the composition-weighted sum of
its matrix rows is zero. Missing for the full statement: transition states as end states and
starred adsorbates, which the matrices drop (`C10_transition_state_end_refuted`). -/
theorem C10_elements_conserved_partial (rxns : List Str) (n : Network) (h : parseNetwork rxns = .ok n)
    (S R : List (List Int)) (hM : n.stoichMatrices = .ok (S, R))
    (i : Nat) (states : List (List Formula)) (s r : List Int) (hst : n.rxns[i]? = some states)
    (hs : S[i]? = some s) (hr : R[i]? = some r) (hclean : CleanEnds states) (e : Char) :
    (List.zipWith (fun a x => a * nameCount e x) s n.siteCols).sum +
      (List.zipWith (fun a x => a * nameCount e x) r n.reaproCols).sum = 0 := by
  obtain ⟨h1, -⟩ := parseNetwork_ok h
  obtain ⟨hlen, hget⟩ := mapM_ok_inv h1
  unfold Network.stoichMatrices at hM
  cases hS : n.rxns.mapM (stoichRow n.siteCols) with
  | error _ => rw [hS] at hM; cases hM
  | ok S' =>
    cases hR : n.rxns.mapM (stoichRow n.reaproCols) with
    | error _ => rw [hS, hR] at hM; cases hM
    | ok R' =>
      rw [hS, hR] at hM; cases hM
      obtain ⟨lS, gS⟩ := mapM_ok_inv hS
      obtain ⟨lR, gR⟩ := mapM_ok_inv hR
      obtain ⟨hi, rfl⟩ := List.getElem?_eq_some_iff.mp hst
      obtain ⟨hiS, rfl⟩ := List.getElem?_eq_some_iff.mp hs
      obtain ⟨hiR, rfl⟩ := List.getElem?_eq_some_iff.mp hr
      have hp := hget i (by omega) hi
      obtain ⟨is, fs, e1, e2, hel, -⟩ := parseRxn_ends hp
      rw [wsum_stoichRow _ e1 e2 (gS i hi hiS), wsum_stoichRow _ e1 e2 (gR i hi hiR)]
      have occ : ∀ gs, (n.rxns[i].head? = some gs ∨ n.rxns[i].getLast? = some gs) →
          ∀ f ∈ gs, OccursIn rxns f := by
        intro gs hgs f hf
        refine ⟨rxns[i]'(by omega), List.getElem_mem _, _, (parseRxn_ok.mp hp).2, gs, ?_, hf⟩
        rcases hgs with hgs | hgs
        · exact List.mem_of_head? hgs
        · exact List.mem_of_getLast? hgs
      have tot : ∀ gs, (n.rxns[i].head? = some gs ∨ n.rxns[i].getLast? = some gs) →
          stateSum n.siteCols (nameCount e) gs + stateSum n.reaproCols (nameCount e) gs
            = (val (stateElements gs) e : Int) := by
        intro gs hgs
        have hgood : ∀ f ∈ gs, ∃ ns, Good f ns := fun f hf =>
          network_good h f ((mem_flat_iff h f).mpr (occ gs hgs f hf))
        rw [stateSum_total h (nameCount e) (fun f => (val (speciesElements f.species) e : Int))
          (occ gs hgs) (fun f hf => (hclean gs hgs f hf).1)
          (fun f hf => by obtain ⟨ns, hg⟩ := hgood f hf; exact nameCount_good hg e)
          (fun f hf hk => by
            right
            rw [(hclean gs hgs f hf).2 hk]
            rfl)]
        rw [val_stateElements, sum_int_cast, List.map_map]
        simp [Function.comp_def]
      have t1 := tot is (Or.inl e1)
      have t2 := tot fs (Or.inr e2)
      rw [← hel e] at t2
      linarith

/-- The same for every surface site type, if moreover empty sites carry no number. -/
theorem C10_sites_conserved_partial (rxns : List Str) (n : Network) (h : parseNetwork rxns = .ok n)
    (S R : List (List Int)) (hM : n.stoichMatrices = .ok (S, R))
    (i : Nat) (states : List (List Formula)) (s r : List Int) (hst : n.rxns[i]? = some states)
    (hs : S[i]? = some s) (hr : R[i]? = some r) (hclean : CleanSites states) (t : Str) :
    (List.zipWith (fun a x => a * nameSites t x) s n.siteCols).sum +
      (List.zipWith (fun a x => a * nameSites t x) r n.reaproCols).sum = 0 := by
  obtain ⟨h1, -⟩ := parseNetwork_ok h
  obtain ⟨hlen, hget⟩ := mapM_ok_inv h1
  unfold Network.stoichMatrices at hM
  cases hS : n.rxns.mapM (stoichRow n.siteCols) with
  | error _ => rw [hS] at hM; cases hM
  | ok S' =>
    cases hR : n.rxns.mapM (stoichRow n.reaproCols) with
    | error _ => rw [hS, hR] at hM; cases hM
    | ok R' =>
      rw [hS, hR] at hM; cases hM
      obtain ⟨lS, gS⟩ := mapM_ok_inv hS
      obtain ⟨lR, gR⟩ := mapM_ok_inv hR
      obtain ⟨hi, rfl⟩ := List.getElem?_eq_some_iff.mp hst
      obtain ⟨hiS, rfl⟩ := List.getElem?_eq_some_iff.mp hs
      obtain ⟨hiR, rfl⟩ := List.getElem?_eq_some_iff.mp hr
      have hp := hget i (by omega) hi
      obtain ⟨is, fs, e1, e2, -, hsi⟩ := parseRxn_ends hp
      rw [wsum_stoichRow _ e1 e2 (gS i hi hiS), wsum_stoichRow _ e1 e2 (gR i hi hiR)]
      have occ : ∀ gs, (n.rxns[i].head? = some gs ∨ n.rxns[i].getLast? = some gs) →
          ∀ f ∈ gs, OccursIn rxns f := by
        intro gs hgs f hf
        refine ⟨rxns[i]'(by omega), List.getElem_mem _, _, (parseRxn_ok.mp hp).2, gs, ?_, hf⟩
        rcases hgs with hgs | hgs
        · exact List.mem_of_head? hgs
        · exact List.mem_of_getLast? hgs
      have tot : ∀ gs, (n.rxns[i].head? = some gs ∨ n.rxns[i].getLast? = some gs) →
          stateSum n.siteCols (nameSites t) gs + stateSum n.reaproCols (nameSites t) gs
            = (val (stateSites gs) t : Int) := by
        intro gs hgs
        have hgood : ∀ f ∈ gs, ∃ ns, Good f ns := fun f hf =>
          network_good h f ((mem_flat_iff h f).mpr (occ gs hgs f hf))
        rw [stateSum_total h (nameSites t)
          (fun f => if f.site = t ∧ t ≠ str! "g" ∧ t ≠ str! "l" then (f.nsite : Int) else 0)
          (occ gs hgs) (fun f hf => (hclean.1 gs hgs f hf).1)
          (fun f hf => by obtain ⟨ns, hg⟩ := hgood f hf; exact nameSites_good hg t)
          (fun f hf hk => by
            left
            rw [hclean.2 gs hgs f hf hk]
            unfold Network.siteCols
            rw [List.mem_append]
            left
            rw [C08_site_names _ _ h]
            have h1 : f.site ≠ str! "g" := fun hg => by simp [specKind, hg] at hk
            have h2 : f.site ≠ str! "l" := fun hg => by simp [specKind, hg] at hk
            exact ⟨f, occ gs hgs f hf, h1, h2, rfl⟩)]
        rw [val_stateSites, sum_int_cast, List.map_map]
        congr 1
        apply List.map_congr_left
        intro f _
        simp only [Function.comp_def]
        split
        · push_cast; ring
        · simp
      have t1 := tot is (Or.inl e1)
      have t2 := tot fs (Or.inr e2)
      rw [← hsi t] at t2
      linarith

/-- The third reaction of CO oxidation meets the hypotheses. -/
example : ∃ states, exNet.rxns[2]? = some states ∧ CleanSites states := by
  refine ⟨_, rfl, ⟨?_, ?_⟩⟩
  · intro fs hfs
    rcases hfs with h | h <;> cases h <;> decide
  · intro fs hfs
    rcases hfs with h | h <;> cases h <;> decide

/-- With a transition state as end state the rows lose its atoms: `CO_s + O_s -> CO-O_2s` is
accepted and its rows have carbon sum 1. -/
theorem C10_transition_state_end_refuted :
    ∃ n S R, parseNetwork [str! "CO_s + O_s -> CO-O_2s"] = .ok n ∧ n.stoichMatrices = .ok (S, R) ∧
      (List.zipWith (fun a x => a * nameCount 'C' x) (S.headD []) n.siteCols).sum +
      (List.zipWith (fun a x => a * nameCount 'C' x) (R.headD []) n.reaproCols).sum = 1 :=
  ⟨_, _, _, rfl, rfl, by decide⟩

/-- An empty site written with a number is dropped from the matrix: `O2_g + *_2s -> 2O_s` is
accepted and its rows lose two sites. -/
theorem C10_numbered_empty_site_refuted :
    ∃ n S R, parseNetwork [str! "O2_g + *_2s -> 2O_s"] = .ok n ∧ n.stoichMatrices = .ok (S, R) ∧
      (List.zipWith (fun a x => a * nameSites (str! "s") x) (S.headD []) n.siteCols).sum +
      (List.zipWith (fun a x => a * nameSites (str! "s") x) (R.headD []) n.reaproCols).sum = -2 :=
  ⟨_, _, _, rfl, rfl, by decide⟩

/-! ### The theorems at these cases -/

example := C08_lists_complete exRxns exNet exNet_ok .ads (by decide) (str! "CO_s")

example (f : Formula) (h : OccursIn exRxns f) := C08_listed_exactly_once exRxns exNet exNet_ok f h .gas

example := C08_site_names exRxns exNet exNet_ok (str! "*_s")

example := C08_lists_sorted exRxns exNet exNet_ok

example := C08_order_independent exRxns exRxns.reverse (List.reverse_perm _).symm exNet exNet_ok

example := C09_entries exRxns exNet exNet_ok

example := C10_weights_match_specification ⟨some 2, .mol [.elem 'C' none, .elem 'H' (some 3)], none, str! "s"⟩ (by decide) 'C' (str! "s")

theorem exNet_last : ∃ states, exNet.rxns[2]? = some states ∧ CleanSites states := by
  refine ⟨_, rfl, ⟨?_, ?_⟩⟩
  · intro fs hfs
    rcases hfs with h | h <;> cases h <;> decide
  · intro fs hfs
    rcases hfs with h | h <;> cases h <;> decide

example (e : Char) := exNet_last.elim fun states h => C10_elements_conserved_partial exRxns exNet exNet_ok
  [[1, -1, 0], [2, 0, -2], [-2, 1, 1]] [[0, 1, 0], [0, 0, 1], [-1, 0, 0]] (by decide) 2 states [-2, 1, 1] [-1, 0, 0] h.1 rfl rfl h.2.1 e

example (t : Str) := exNet_last.elim fun states h => C10_sites_conserved_partial exRxns exNet exNet_ok
  [[1, -1, 0], [2, 0, -2], [-2, 1, 1]] [[0, 1, 0], [0, 0, 1], [-1, 0, 0]] (by decide) 2 states [-2, 1, 1] [-1, 0, 0] h.1 rfl rfl h.2 t

end Verif
