import Verif.Props.MeanField
import Verif.Props.Rxn
/-
What the code computes where the intended result is not given in all cases: exact statements beside the `_partial` ones.
-/
namespace Verif
open Dict

/-! ## C04 -/

/-- Two states name the same elements and the same surface sites, with whatever numbers. -/
def SameNames (s t : Spec.State) : Prop :=
  (∀ e, s.any (·.sp.mentions e) = t.any (·.sp.mentions e)) ∧
  ∀ x, x ≠ ['g'] → x ≠ ['l'] → ((∃ f ∈ s, f.site = x) ↔ ∃ f ∈ t, f.site = x)

theorem conserve_exact {s t : Spec.State} (hs : s.ok = true) (ht : t.ok = true) :
    ((balanced2 s t ∧ SameNames s t) ∧ stateConserve s.text t.text = .ok true) ∨
    (¬ (balanced2 s t ∧ SameNames s t) ∧ stateConserve s.text t.text = .error .ValueError) := by
  have el : ∀ {s : Spec.State}, s.ok = true → ∀ e, get? (stateElements (s.map ofSpec)) e =
      if s.any (·.sp.mentions e) then some (s.count e) else none := by
    intro s h e
    obtain ⟨fs, h1, h2⟩ := C02_state_elements s h e
    rw [stateFormulas_ofSpec h] at h1
    cases h1
    exact h2
  have si : ∀ {s : Spec.State}, s.ok = true → ∀ x, get? (stateSites (s.map ofSpec)) x =
      if x ≠ ['g'] ∧ x ≠ ['l'] ∧ ∃ f ∈ s, f.site = x then some (s.siteCount x) else none := by
    intro s h e
    obtain ⟨fs, h1, h2⟩ := C02_state_sites s h e
    rw [stateFormulas_ofSpec h] at h1
    cases h1
    exact h2
  have cz : ∀ {s : Spec.State}, s.ok = true → ∀ e, s.any (·.sp.mentions e) = false → s.count e = 0 := by
    intro s h e hn
    have := count_ofSpec h e
    unfold val at this
    rw [el h, hn] at this
    exact this.symm
  have sz : ∀ {s : Spec.State}, ∀ x, ¬ (x ≠ ['g'] ∧ x ≠ ['l'] ∧ ∃ f ∈ s, f.site = x) → s.siteCount x = 0 := by
    intro s x hn
    apply List.sum_eq_zero
    intro n hn'
    obtain ⟨f, hf, rfl⟩ := List.mem_map.mp hn'
    exact if_neg fun h => hn ⟨h.2.1, h.2.2, f, hf, h.1⟩
  have e1 : eqB (stateElements (s.map ofSpec)) (stateElements (t.map ofSpec)) = true ↔
      (∀ e, s.count e = t.count e) ∧ ∀ e, s.any (·.sp.mentions e) = t.any (·.sp.mentions e) := by
    rw [eqB_iff (nodup_stateElements _) (nodup_stateElements _)]
    constructor
    · intro h
      have key : ∀ e, s.count e = t.count e ∧ s.any (·.sp.mentions e) = t.any (·.sp.mentions e) := by
        intro e
        have := h e
        rw [el hs, el ht] at this
        cases h1 : s.any (·.sp.mentions e) <;> cases h2 : t.any (·.sp.mentions e)
        · exact ⟨by rw [cz hs e h1, cz ht e h2], rfl⟩
        · rw [h1, h2] at this; simp at this
        · rw [h1, h2] at this; simp at this
        · rw [h1, h2] at this; exact ⟨by simpa using this, rfl⟩
      exact ⟨fun e => (key e).1, fun e => (key e).2⟩
    · rintro ⟨h1, h2⟩ e
      rw [el hs, el ht, h1, h2]
  have e2 : eqB (stateSites (s.map ofSpec)) (stateSites (t.map ofSpec)) = true ↔
      (∀ x, s.siteCount x = t.siteCount x) ∧ ∀ x, x ≠ ['g'] → x ≠ ['l'] → ((∃ f ∈ s, f.site = x) ↔ ∃ f ∈ t, f.site = x) := by
    rw [eqB_iff (nodup_stateSites _) (nodup_stateSites _)]
    constructor
    · intro h
      have key : ∀ x, s.siteCount x = t.siteCount x ∧ ((x ≠ ['g'] ∧ x ≠ ['l'] ∧ ∃ f ∈ s, f.site = x) ↔ (x ≠ ['g'] ∧ x ≠ ['l'] ∧ ∃ f ∈ t, f.site = x)) := by
        intro x
        have := h x
        rw [si hs, si ht] at this
        by_cases h1 : x ≠ ['g'] ∧ x ≠ ['l'] ∧ ∃ f ∈ s, f.site = x <;> by_cases h2 : x ≠ ['g'] ∧ x ≠ ['l'] ∧ ∃ f ∈ t, f.site = x
        · rw [if_pos h1, if_pos h2] at this; exact ⟨Option.some.inj this, ⟨fun _ => h2, fun _ => h1⟩⟩
        · rw [if_pos h1, if_neg h2] at this; exact nomatch this
        · rw [if_neg h1, if_pos h2] at this; exact nomatch this
        · exact ⟨by rw [sz x h1, sz x h2], ⟨fun h => absurd h h1, fun h => absurd h h2⟩⟩
      exact ⟨fun x => (key x).1, fun x g1 g2 => ⟨fun h => ((key x).2.mp ⟨g1, g2, h⟩).2.2, fun h => ((key x).2.mpr ⟨g1, g2, h⟩).2.2⟩⟩
    · rintro ⟨h1, h2⟩ x
      rw [si hs, si ht, h1]
      by_cases hx : x ≠ ['g'] ∧ x ≠ ['l']
      · simp only [h2 x hx.1 hx.2]
      · rw [if_neg fun h => hx ⟨h.1, h.2.1⟩, if_neg fun h => hx ⟨h.1, h.2.1⟩]
  have hred : stateConserve s.text t.text = conserveFormulas (s.map ofSpec) (t.map ofSpec) := by
    unfold stateConserve
    rw [stateFormulas_ofSpec hs, stateFormulas_ofSpec ht]
    rfl
  rw [hred]
  unfold conserveFormulas
  by_cases h1 : eqB (stateElements (s.map ofSpec)) (stateElements (t.map ofSpec)) = true
  · by_cases h2 : eqB (stateSites (s.map ofSpec)) (stateSites (t.map ofSpec)) = true
    · left; exact ⟨⟨⟨(e1.mp h1).1, (e2.mp h2).1⟩, (e1.mp h1).2, (e2.mp h2).2⟩, by simp [h1, h2]⟩
    · right; exact ⟨fun h => h2 (e2.mpr ⟨h.1.2, h.2.2⟩), by simp [h1, h2]⟩
  · right; exact ⟨fun h => h1 (e1.mpr ⟨h.1.1, h.2.1⟩), by simp [h1]⟩

/-- **C04** The check on every reaction of the notation, also with zeros: it passes exactly if the reaction is balanced and
all states name the same elements and sites, and raises `ValueError` otherwise. -/
theorem C04_exact (r : Spec.Rxn) (r1 r2 : Bool) (h : r.ok = true) :
    ((r.balanced ∧ ∀ s ∈ r.states, ∀ t ∈ r.states, SameNames s t) ∧ checkConservation (r.text r1 r2) = .ok true) ∨
    (¬ (r.balanced ∧ ∀ s ∈ r.states, ∀ t ∈ r.states, SameNames s t) ∧ checkConservation (r.text r1 r2) = .error .ValueError) := by
  have hok := rxn_ok_states h
  obtain ⟨s0, rest, hst⟩ : ∃ s0 rest, r.states = s0 :: rest := by
    cases r <;> exact ⟨_, _, rfl⟩
  have hs0 : s0 ∈ r.states := by simp [hst]
  have hrest : ∀ t ∈ rest, t ∈ r.states := fun t ht => by simp [hst, ht]
  have hpair := fun t (ht : t ∈ rest) => conserve_exact (hok _ hs0) (hok _ (hrest t ht))
  have hbal : (r.balanced ∧ ∀ s ∈ r.states, ∀ t ∈ r.states, SameNames s t) ↔ ∀ t ∈ rest, balanced2 s0 t ∧ SameNames s0 t := by
    constructor
    · intro hb t ht; exact ⟨hb.1 s0 hs0 t (hrest t ht), hb.2 s0 hs0 t (hrest t ht)⟩
    · intro hb
      have h0 : ∀ t ∈ r.states, balanced2 s0 t ∧ SameNames s0 t := by
        intro t ht
        rw [hst] at ht
        rcases List.mem_cons.mp ht with rfl | ht
        · exact ⟨⟨fun _ => rfl, fun _ => rfl⟩, fun _ => rfl, fun _ _ _ => Iff.rfl⟩
        · exact hb t ht
      exact ⟨fun s hs t ht => ⟨fun e => ((h0 s hs).1.1 e).symm.trans ((h0 t ht).1.1 e),
          fun x => ((h0 s hs).1.2 x).symm.trans ((h0 t ht).1.2 x)⟩,
        fun s hs t ht => ⟨fun e => ((h0 s hs).2.1 e).symm.trans ((h0 t ht).2.1 e),
          fun x g1 g2 => ((h0 s hs).2.2 x g1 g2).symm.trans ((h0 t ht).2.2 x g1 g2)⟩⟩
  have hstates : eqnStates (r.text r1 r2) = .ok (s0.text :: rest.map Spec.State.text) := by
    rw [eqnStates_ofSpec h, hst]; rfl
  rw [hbal]
  by_cases hb : ∀ t ∈ rest, balanced2 s0 t ∧ SameNames s0 t
  · left
    refine ⟨hb, ?_⟩
    rw [checkConservation_iff]
    refine ⟨_, _, hstates, ?_⟩
    intro t ht
    obtain ⟨u, hu, rfl⟩ := List.mem_map.mp ht
    rcases hpair u hu with ⟨-, h⟩ | ⟨h, -⟩
    · exact h
    · exact absurd (hb u hu) h
  · right
    refine ⟨hb, ?_⟩
    unfold checkConservation
    rw [hstates]
    have : (rest.map Spec.State.text).forM
        (fun t => do let _ ← stateConserve s0.text t : Str → Py PUnit) = .error .ValueError := by
      apply forM_first_error
      · intro x hx
        obtain ⟨u, hu, rfl⟩ := List.mem_map.mp hx
        rcases hpair u hu with ⟨-, h⟩ | ⟨-, h⟩
        · left; rw [h]; rfl
        · right; rw [h]; rfl
      · intro hall
        apply hb
        intro t ht
        have := hall t.text (List.mem_map.mpr ⟨t, ht, rfl⟩)
        rcases hpair t ht with ⟨hbt, -⟩ | ⟨-, h⟩
        · exact hbt
        · rw [h] at this; cases this
    show ((rest.map Spec.State.text).forM _ >>= fun _ => pure true : Py Bool) = _
    rw [this]; rfl

/-- Zeros on both sides pass; a zero on one side only does not. -/
example : checkConservation (str! "O_s + 0C_s -> O_s + 0C_s") = .ok true ∧ checkConservation (str! "O_s + 0C_s -> O_s") = .error .ValueError := by
  decide

/-! ## C07 -/

theorem speciesSiteDict_last (fs : List Formula) (d : Dict Str Nat) (x : Str) :
    get? (fs.foldl (fun d f => Dict.set d f.speciesSite f.stoich) d) x =
      match (fs.filter fun f => f.speciesSite = x).getLast? with
      | some f => some f.stoich
      | none => get? d x := by
  induction fs generalizing d with
  | nil => rfl
  | cons f fs ih =>
    rw [List.foldl_cons, ih]
    obtain ⟨l, hl⟩ : ∃ l, fs.filter (fun f => decide (f.speciesSite = x)) = l := ⟨_, rfl⟩
    by_cases h : f.speciesSite = x
    · rw [List.filter_cons_of_pos (by simpa using h), hl, get?_set, if_pos h]
      cases l with
      | nil => rfl
      | cons g gs =>
        rw [List.getLast?_cons_cons]
        cases hg : (g :: gs).getLast? with
        | none => simp at hg
        | some _ => rfl
    · rw [List.filter_cons_of_neg (by simpa using h), hl, get?_set, if_neg h]

/-- **C07** What the dictionary of a state says in all cases: a species written several times has the coefficient it has
at its last place. -/
theorem C07_last (s : Spec.State) (h : s.ok = true) :
    ∃ fs, stateFormulas s.text = .ok fs ∧
      (∀ x pre f post, s = pre ++ f :: post → f.speciesSite = x → (∀ g ∈ post, g.speciesSite ≠ x) →
        get? (speciesSiteDict fs) x = some f.coefficient) ∧
      ∀ x, (∀ f ∈ s, f.speciesSite ≠ x) → get? (speciesSiteDict fs) x = none := by
  refine ⟨s.map ofSpec, stateFormulas_ofSpec h, ?_, ?_⟩
  · rintro x pre f post rfl hf hp
    unfold speciesSiteDict
    rw [speciesSiteDict_last, List.map_append, List.map_cons, List.filter_append, List.filter_cons]
    have hpost : (post.map ofSpec).filter (fun f => decide (f.speciesSite = x)) = [] := by
      rw [List.filter_eq_nil_iff]
      intro g hg
      obtain ⟨g', hg', rfl⟩ := List.mem_map.mp hg
      exact fun h => hp g' hg' (@of_decide_eq_true _ (_) h)
    rw [if_pos (@decide_eq_true ((ofSpec f).speciesSite = x) (_) hf), hpost, List.getLast?_concat]
    rfl
  · intro x hx
    unfold speciesSiteDict
    rw [speciesSiteDict_last]
    have : (s.map ofSpec).filter (fun f => decide (f.speciesSite = x)) = [] := by
      rw [List.filter_eq_nil_iff]
      intro g hg
      obtain ⟨g', hg', rfl⟩ := List.mem_map.mp hg
      exact fun h => hx g' hg' (@of_decide_eq_true _ (_) h)
    rw [this]
    rfl

theorem last_place {x : Str} {s : List Spec.Formula} (h : ∃ f ∈ s, f.speciesSite = x) :
    ∃ pre f post, s = pre ++ f :: post ∧ f.speciesSite = x ∧ ∀ g ∈ post, g.speciesSite ≠ x := by
  induction s with
  | nil => obtain ⟨f, hf, -⟩ := h; exact absurd hf (by simp)
  | cons g s ih =>
    by_cases hs : ∃ f ∈ s, f.speciesSite = x
    · obtain ⟨pre, f, post, h1, h2, h3⟩ := ih hs
      exact ⟨g :: pre, f, post, by rw [h1]; rfl, h2, h3⟩
    · obtain ⟨f, hf, hx⟩ := h
      rcases List.mem_cons.mp hf with rfl | hf
      · exact ⟨[], f, s, rfl, hx, fun g hg e => hs ⟨g, hg, e⟩⟩
      · exact absurd ⟨f, hf, hx⟩ hs

theorem nodup_of_last {s : List Spec.Formula}
    (h : ∀ pre f post, s = pre ++ f :: post → (∀ g ∈ post, g.speciesSite ≠ f.speciesSite) → ∀ g ∈ pre, g.speciesSite ≠ f.speciesSite) :
    (s.map Spec.Formula.speciesSite).Nodup := by
  induction s with
  | nil => exact List.nodup_nil
  | cons g s ih =>
    rw [List.map_cons, List.nodup_cons]
    refine ⟨fun hg => ?_, ih fun pre f post e hp g' hg' => h (g :: pre) f post (by rw [e]; rfl) hp g' (by simp [hg'])⟩
    obtain ⟨f, hf, e⟩ := List.mem_map.mp hg
    obtain ⟨pre, f', post, h1, h2, h3⟩ := last_place ⟨f, hf, e⟩
    exact h (g :: pre) f' post (by rw [h1]; rfl) (fun g' hg' => by rw [h2]; exact h3 g' hg') g (by simp) h2.symm

theorem specTotal_append (x : Str) (a b : Spec.State) : specTotal x (a ++ b) = specTotal x a + specTotal x b := by
  unfold specTotal
  rw [List.map_append, List.sum_append]

theorem specTotal_pos {x : Str} {s : Spec.State} (hp : ∀ f ∈ s, 0 < f.coefficient) (h : specTotal x s = 0) :
    ∀ g ∈ s, g.speciesSite ≠ x := by
  intro g hg e
  have h1 := List.sum_eq_zero_iff.mp h g.coefficient (List.mem_map.mpr ⟨g, hg, by rw [if_pos e]⟩)
  have := hp g hg
  omega

/-- **C07** The dictionary of a state with positive coefficients gives the totals exactly if no species is repeated. -/
theorem C07_iff (s : Spec.State) (h : s.ok = true) (hp : ∀ f ∈ s, 0 < f.coefficient) :
    (∃ fs, stateFormulas s.text = .ok fs ∧ ∀ x, get? (speciesSiteDict fs) x =
      if ∃ f ∈ s, f.speciesSite = x then some (specTotal x s) else none) ↔ (s.map Spec.Formula.speciesSite).Nodup := by
  constructor
  · rintro ⟨fs, h1, h2⟩
    obtain ⟨fs', h3, h4, -⟩ := C07_last s h
    rw [h1] at h3
    cases h3
    refine nodup_of_last fun pre f post e hpost => specTotal_pos (fun g hg => hp g (by simp [e, hg])) ?_
    have := h4 f.speciesSite pre f post e rfl hpost
    rw [h2, if_pos ⟨f, by simp [e], rfl⟩, e, specTotal_append] at this
    have hc : specTotal f.speciesSite (f :: post) = f.coefficient + specTotal f.speciesSite post := by
      unfold specTotal
      rw [List.map_cons, List.sum_cons, if_pos rfl]
    have := Option.some.inj this
    omega
  · intro hn
    refine ⟨s.map ofSpec, stateFormulas_ofSpec h, fun x => ?_⟩
    obtain ⟨fs, h1, h2⟩ := C07_species_dict_partial s h hn x
    rw [stateFormulas_ofSpec h] at h1
    cases h1
    exact h2

def exTwiceMade : Spec.State :=
  [⟨some 2, .mol [.elem 'C' none, .elem 'O' none], none, str! "s"⟩, ⟨none, .mol [.elem 'H' none], none, str! "s"⟩,
    ⟨some 3, .mol [.elem 'C' none, .elem 'O' none], none, str! "s"⟩]

example : exTwiceMade.ok = true ∧ (∀ f ∈ exTwiceMade, 0 < f.coefficient) ∧ specTotal (str! "CO_s") exTwiceMade = 5 ∧
    (match stateFormulas exTwiceMade.text with | .ok fs => get? (speciesSiteDict fs) (str! "CO_s") | .error _ => none) = some 3 := by
  decide

/-! ## C26 -/

/-- What a reaction counts for an adsorbate: nothing if no formula names it, else the coefficient of the first formula
that does, taken away if it stands in the first state and added if it stands in any later one. -/
inductive CountsAs (a : Str) : List (List Formula) → Int → Prop
  | absent (states : List (List Formula)) (h : ∀ fs ∈ states, ∀ f ∈ fs, f.speciesSite ≠ a) : CountsAs a states 0
  | first (p q : List Formula) (f : Formula) (rest : List (List Formula)) (hp : ∀ g ∈ p, g.speciesSite ≠ a) (hf : f.speciesSite = a) :
      CountsAs a ((p ++ f :: q) :: rest) (-(f.stoich : Int))
  | later (fs : List Formula) (mid : List (List Formula)) (p q : List Formula) (f : Formula) (rest : List (List Formula))
      (hm : ∀ gs ∈ fs :: mid, ∀ g ∈ gs, g.speciesSite ≠ a) (hp : ∀ g ∈ p, g.speciesSite ≠ a) (hf : f.speciesSite = a) :
      CountsAs a (fs :: mid ++ (p ++ f :: q) :: rest) f.stoich

theorem find?_split {a : Str} {fs : List Formula} {f : Formula} (h : fs.find? (·.speciesSite = a) = some f) :
    ∃ p q, fs = p ++ f :: q ∧ (∀ g ∈ p, g.speciesSite ≠ a) ∧ f.speciesSite = a := by
  obtain ⟨h1, p, q, h2, h3⟩ := List.find?_eq_some_iff_append.mp h
  exact ⟨p, q, h2, fun g hg => by simpa using h3 g hg, by simpa using h1⟩

theorem find?_not {a : Str} {fs : List Formula} (h : fs.find? (·.speciesSite = a) = none) : ∀ f ∈ fs, f.speciesSite ≠ a := by
  intro f hf
  simpa using List.find?_eq_none.mp h f hf

theorem findAds_spec (a : Str) (states : List (List Formula)) :
    (findAds a states = none ∧ ∀ fs ∈ states, ∀ f ∈ fs, f.speciesSite ≠ a) ∨
    ∃ pre p f q rest, states = pre ++ (p ++ f :: q) :: rest ∧ (∀ gs ∈ pre, ∀ g ∈ gs, g.speciesSite ≠ a) ∧
      (∀ g ∈ p, g.speciesSite ≠ a) ∧ f.speciesSite = a ∧ findAds a states = some (pre.length, f.stoich) := by
  induction states with
  | nil => exact .inl ⟨rfl, fun _ h => nomatch h⟩
  | cons fs rest ih =>
    unfold findAds
    cases hf : fs.find? (fun f => decide (f.speciesSite = a)) with
    | some f =>
      obtain ⟨p, q, h1, h2, h3⟩ := find?_split hf
      exact .inr ⟨[], p, f, q, rest, by rw [h1]; rfl, by simp, h2, h3, rfl⟩
    | none =>
      have hn := find?_not hf
      rcases ih with ⟨h1, h2⟩ | ⟨pre, p, f, q, rest', h1, h2, h3, h4, h5⟩
      · refine .inl ⟨by rw [h1]; rfl, fun gs hg => ?_⟩
        rcases List.mem_cons.mp hg with rfl | hg
        · exact hn
        · exact h2 gs hg
      · refine .inr ⟨fs :: pre, p, f, q, rest', by rw [h1]; rfl, fun gs hg => ?_, h3, h4, by rw [h5]; rfl⟩
        rcases List.mem_cons.mp hg with rfl | hg
        · exact hn
        · exact h2 gs hg

theorem codeCoef_counts (a : Str) (states : List (List Formula)) : CountsAs a states (codeCoef a states) := by
  unfold codeCoef
  rcases findAds_spec a states with ⟨h1, h2⟩ | ⟨pre, p, f, q, rest, rfl, h2, h3, h4, h5⟩
  · rw [h1]; exact .absent states h2
  · rw [h5]
    cases pre with
    | nil => exact .first p q f rest h3 h4
    | cons fs mid => exact .later fs mid p q f rest h2 h3 h4

variable {K : Type} [Field K]

/-- **C26** What the coverage equations are for every network with clean end states, without any assumption on where an
adsorbate stands: the sum over the reactions of what the reaction counts for the adsorbate times the net rate. -/
theorem C26_counted (o : MFOwner K) (total P C : Str → K) (h : Ready o total P C)
    (hc : ∀ states ∈ o.net.rxns, RateClean states) (v : Str → K) (kf kr : List K) (hnd : o.rxns.Nodup)
    (hf : kf.length = o.rxns.length) (hr : kr.length = o.rxns.length) :
    ∃ net, getNetRates o (kf, kr) (o.net.ads.map v) = .ok net ∧ net.length = o.rxns.length ∧
      ∃ c : Str → List (List Formula) → Int, (∀ a states, CountsAs a states (c a states)) ∧
        steadyStateFunction o (kf, kr) (o.net.ads.map v) = .ok (o.net.ads.map fun a =>
          (List.zipWith (fun states r => (c a states : K) * r) o.net.rxns net).sum) := by
  obtain ⟨κf, hκf⟩ := kOk_nodup hnd hf
  obtain ⟨κr, hκr⟩ := kOk_nodup hnd hr
  obtain ⟨net, h1, h2, h3⟩ := steady_ok o total P C h hc v kf kr κf κr hκf hκr
  exact ⟨net, h1, h2, codeCoef, codeCoef_counts, h3⟩

theorem countsAs_unique {a : Str} {states : List (List Formula)} {z : Int} (h : CountsAs a states z) : z = codeCoef a states := by
  have none_of : ∀ {fs : List Formula}, (∀ f ∈ fs, f.speciesSite ≠ a) → fs.find? (fun f => decide (f.speciesSite = a)) = none := by
    intro fs h
    rw [List.find?_eq_none]
    intro f hf
    simpa using h f hf
  have some_of : ∀ {p q : List Formula} {f : Formula}, (∀ g ∈ p, g.speciesSite ≠ a) → f.speciesSite = a →
      (p ++ f :: q).find? (fun f => decide (f.speciesSite = a)) = some f := by
    intro p q f hp hf
    rw [List.find?_append, none_of hp, List.find?_cons_of_pos (by simpa using hf)]
    rfl
  have find_app : ∀ (pre : List (List Formula)) (p q : List Formula) (f : Formula) (rest : List (List Formula)),
      (∀ gs ∈ pre, ∀ g ∈ gs, g.speciesSite ≠ a) → (∀ g ∈ p, g.speciesSite ≠ a) → f.speciesSite = a →
      findAds a (pre ++ (p ++ f :: q) :: rest) = some (pre.length, f.stoich) := by
    intro pre p q f rest hpre hp hf
    induction pre with
    | nil => rw [List.nil_append, findAds, some_of hp hf]; rfl
    | cons gs pre ih =>
      rw [List.cons_append, findAds, none_of (hpre gs (by simp))]
      dsimp only
      rw [ih fun g hg => hpre g (by simp [hg])]
      rfl
  cases h with
  | absent _ h =>
    have : findAds a states = none := by
      induction states with
      | nil => rfl
      | cons fs rest ih =>
        rw [findAds, none_of (h fs (by simp))]
        dsimp only
        rw [ih fun g hg => h g (by simp [hg])]
        rfl
    unfold codeCoef
    rw [this]
  | first p q f rest hp hf =>
    have := find_app [] p q f rest (fun _ h => nomatch h) hp hf
    rw [List.nil_append] at this
    unfold codeCoef
    rw [this]
    rfl
  | later fs mid p q f rest hm hp hf =>
    have := find_app (fs :: mid) p q f rest hm hp hf
    unfold codeCoef
    rw [this]
    rfl

theorem zipWith_unit_sum {α : Type} (g : α → K) (l : List α) (i : Nat) (hi : i < l.length) :
    (List.zipWith (fun s r => g s * r) l ((List.range l.length).map fun j => if j = i then (1 : K) else 0)).sum = g l[i] := by
  rw [sum_zipWith_range (fun s r => g s * r) l _ (by simp) (fun j => if j = i then g l[i] else 0)]
  · rw [List.sum_map_ite_eq]
    simp [hi]
  · intro j h1 h2
    simp only [List.getElem_map, List.getElem_range]
    by_cases h : j = i
    · subst h; simp
    · simp [h]

/-- **C26** The equations are right for all rate constants exactly if every reaction counts for every adsorbate the
number it produces. (At coverages where no reactant is absent; otherwise a reaction has no rate whatever the constant.) -/
theorem C26_iff [CharZero K] (o : MFOwner K) (total P C : Str → K) (h : Ready o total P C)
    (hc : ∀ states ∈ o.net.rxns, RateClean states) (v : Str → K) (hnd : o.rxns.Nodup)
    (hact : ∀ states ∈ o.net.rxns, ∀ is, states.head? = some is → stateActivity P C (coverage o.net total v) is ≠ 0) :
    (∀ kf kr : List K, kf.length = o.rxns.length → kr.length = o.rxns.length →
      ∃ net, getNetRates o (kf, kr) (o.net.ads.map v) = .ok net ∧
        steadyStateFunction o (kf, kr) (o.net.ads.map v) = .ok (o.net.ads.map (production o.net net))) ↔
    ∀ a ∈ o.net.ads, ∀ states ∈ o.net.rxns, CountsAs a states (produced a states) := by
  have hl := length_rxns h.parse
  constructor
  · intro hall a ha states hst
    obtain ⟨i, hi, rfl⟩ := List.mem_iff_getElem.mp hst
    have hi' : i < o.rxns.length := by omega
    obtain ⟨A, hA⟩ : ∃ A : Nat → K, ∀ j (hj : j < o.net.rxns.length), ∃ is, o.net.rxns[j].head? = some is ∧
        A j = stateActivity P C (coverage o.net total v) is := by
      refine ⟨fun j => match o.net.rxns[j]?.bind List.head? with | some is => stateActivity P C (coverage o.net total v) is | none => 0, ?_⟩
      intro j hj
      obtain ⟨st, is, fs, e1, e2, e3, e4, e5, -⟩ := states_ok h.parse (show j < o.rxns.length by omega)
      rw [List.getElem?_eq_getElem hj] at e2
      have : o.net.rxns[j] = st := Option.some.inj e2
      refine ⟨is, by rw [this]; exact e4, ?_⟩
      show (match o.net.rxns[j]?.bind List.head? with | some is => stateActivity P C (coverage o.net total v) is | none => 0) = _
      rw [List.getElem?_eq_getElem hj]
      rw [Option.bind_some, this, e4]
    let kf : List K := (List.range o.rxns.length).map fun j => if j = i then (A i)⁻¹ else 0
    let kr : List K := (List.range o.rxns.length).map fun _ => 0
    obtain ⟨net, hn1, hn2⟩ := hall kf kr (by simp [kf]) (by simp [kr])
    obtain ⟨κf, hκf⟩ := kOk_nodup (K := K) hnd (k := kf) (by simp [kf])
    obtain ⟨κr, hκr⟩ := kOk_nodup (K := K) hnd (k := kr) (by simp [kr])
    obtain ⟨net', h1, h2, h3⟩ := steady_ok o total P C h hc v kf kr κf κr hκf hκr
    rw [h1] at hn1
    cases hn1
    obtain ⟨rfs, rrs, hg, hg1, hg2, hgr⟩ := C25_mass_action_partial o total P C h hc v kf kr hnd (by simp [kf]) (by simp [kr])
    have hnet : net = (List.range o.net.rxns.length).map fun j => if j = i then (1 : K) else 0 := by
      have hz : net = List.zipWith (· - ·) rfs rrs := by
        unfold getNetRates at h1
        rw [hg] at h1
        exact (Except.ok.inj h1).symm
      apply List.ext_getElem
      · rw [h2]; simp [hl]
      · intro j hj1 hj2
        have hjr : j < o.rxns.length := by omega
        obtain ⟨st, is, fs, e1, e2, e3, e4, e5, -⟩ := states_ok h.parse hjr
        obtain ⟨ka, kb, g1, g2, g3, g4⟩ := hgr j hjr st is fs e1 e4 e5
        have gf : kf[j]? = some (if j = i then (A i)⁻¹ else 0) := by simp [kf, hjr]
        have gr : kr[j]? = some 0 := by simp [kr, hjr]
        rw [g1] at gf; rw [g2] at gr
        cases gf; cases gr
        have : net[j]? = some ((if j = i then (A i)⁻¹ else 0) * stateActivity P C (coverage o.net total v) is - 0 * stateActivity P C (coverage o.net total v) fs) := by
          rw [hz, List.getElem?_zipWith, g3, g4]
        rw [List.getElem?_eq_getElem hj1] at this
        rw [Option.some.inj this]
        simp only [List.getElem_map, List.getElem_range]
        by_cases hji : j = i
        · subst hji
          obtain ⟨is', q1, q2⟩ := hA j hi
          rw [List.getElem?_eq_getElem hi] at e2
          have hst' : o.net.rxns[j] = st := Option.some.inj e2
          rw [hst', e4] at q1
          cases q1
          have hne := hact _ (List.getElem_mem hi) is (by rw [hst']; exact e4)
          rw [if_pos rfl, if_pos rfl, q2, inv_mul_cancel₀ hne]
          ring
        · rw [if_neg hji, if_neg hji]; ring
    rw [h3] at hn2
    have heq := List.map_inj_left.mp (Except.ok.inj hn2) a ha
    unfold production at heq
    rw [hnet, zipWith_unit_sum (fun st => (codeCoef a st : K)) _ i hi, zipWith_unit_sum (fun st => (produced a st : K)) _ i hi] at heq
    have : codeCoef a o.net.rxns[i] = produced a o.net.rxns[i] := by exact_mod_cast heq
    rw [← this]
    exact codeCoef_counts _ _
  · intro hcnt kf kr hf hr
    obtain ⟨κf, hκf⟩ := kOk_nodup hnd hf
    obtain ⟨κr, hκr⟩ := kOk_nodup hnd hr
    obtain ⟨net, h1, h2, h3⟩ := steady_ok o total P C h hc v kf kr κf κr hκf hκr
    refine ⟨net, h1, ?_⟩
    rw [h3]
    congr 1
    apply List.map_congr_left
    intro a ha
    unfold production
    congr 1
    have hall := hcnt a ha
    generalize o.net.rxns = rs at hall
    clear h1 h2 h3
    induction rs generalizing net with
    | nil => rfl
    | cons st rs ih =>
      cases net with
      | nil => rfl
      | cons r net =>
        rw [List.zipWith_cons_cons, List.zipWith_cons_cons, ← countsAs_unique (hall st (by simp)), ih net fun s hs => hall s (by simp [hs])]

/-- The example network meets the hypotheses, at coverages of a quarter. -/
example : ∀ a ∈ exMF.net.ads, ∀ states ∈ exMF.net.rxns, CountsAs a states (produced a states) := by
  intro a ha st hst
  rw [← codeCoef_oneSided (exMF_oneSided a ha st hst)]
  exact codeCoef_counts _ _

example : ∀ states ∈ exMF.net.rxns, ∀ is, states.head? = some is →
    stateActivity exP (fun _ => 0) (coverage exMF.net (fun _ => 1) fun _ => 1 / 4) is ≠ 0 := by
  intro st hst is his
  have h : ∀ st ∈ exMF.net.rxns, (match st.head? with
      | some is => decide (stateActivity exP (fun _ => 0) (coverage exMF.net (fun _ => 1) fun _ => 1 / 4) is ≠ 0)
      | none => true) = true := by decide +kernel
  have := h st hst
  rw [his] at this
  exact of_decide_eq_true this

/-! ### The theorems at these cases -/

example := C04_exact exDiss true false (by decide)

example := C07_last exTwiceMade (by decide)

example := C07_iff exTwiceMade (by decide) (by decide)

example := C26_counted exMF _ _ _ exMF_ready exMF_clean (fun _ => 1 / 4) [2, 3, 5] [7, 11, 13] (by decide) rfl rfl

end Verif
