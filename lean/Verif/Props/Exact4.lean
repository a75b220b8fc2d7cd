import Verif.Props.Network
import Verif.Props.Energy
/-
C10 and C66 without restrictions: what is lost, and exactly when nothing is.
-/
namespace Verif
open Dict

/-! ## C10 -/

/-- The formulas for which the matrices have no column: transition states, and empty sites written other than as a star
with the name of the site. -/
def Dropped (f : Formula) : Prop :=
  specKind f.species f.site = .ts ∨ (specKind f.species f.site = .empty ∧ f.speciesSite ≠ str! "*_" ++ f.site)

instance (f : Formula) : Decidable (Dropped f) := by unfold Dropped; infer_instance

/-- Atoms of an element in the formulas of a state that have no column. -/
def lostAtoms (e : Char) (fs : List Formula) : Int :=
  ((fs.filter fun f => Dropped f).map fun f => (f.stoich : Int) * nameCount e f.speciesSite).sum

/-- Sites of a type in the formulas of a state that have no column. -/
def lostSites (t : Str) (fs : List Formula) : Int :=
  ((fs.filter fun f => Dropped f).map fun f => (f.stoich : Int) * nameSites t f.speciesSite).sum

theorem dropped_iff {rxns : List Str} {n : Network} (h : parseNetwork rxns = .ok n) {f : Formula} (hf : OccursIn rxns f) :
    Dropped f ↔ f.speciesSite ∉ n.siteCols ∧ f.speciesSite ∉ n.reaproCols := by
  obtain ⟨l1, l2, l3⟩ := listed_iff h hf
  have hsite : specKind f.species f.site = .empty → (f.speciesSite ∈ n.siteCols ↔ f.speciesSite = str! "*_" ++ f.site) := by
    intro hk
    constructor
    · intro hm
      unfold Network.siteCols at hm
      rcases List.mem_append.mp hm with hm | hm
      · obtain ⟨g, hg, h1, h2, hx⟩ := (C08_site_names _ _ h _).mp hm
        obtain ⟨ns, gf⟩ := network_good h f ((mem_flat_iff h f).mpr hf)
        obtain ⟨ms, gg⟩ := network_good h g ((mem_flat_iff h g).mpr hg)
        have hx' := hx
        rw [gf.name] at hx'
        obtain ⟨e1, -, e3⟩ := name_parts (sp' := ['*']) (ms := []) (t := g.site) gf.num (by simp) gf.site gg.site hx'
        rw [hx, e3]
      · have := ((C08_listed_exactly_once _ _ h f hf .ads).mp hm).1
        rw [hk] at this; cases this
    · intro he
      rw [he]
      unfold Network.siteCols
      rw [List.mem_append]
      left
      rw [C08_site_names _ _ h]
      have h1 : f.site ≠ str! "g" := fun hg => by simp [specKind, hg] at hk
      have h2 : f.site ≠ str! "l" := fun hg => by simp [specKind, hg] at hk
      exact ⟨f, hf, h1, h2, rfl⟩
  unfold Dropped
  cases hk : specKind f.species f.site with
  | gas => have a : f.speciesSite ∈ n.reaproCols := l1.mpr (Or.inl hk); simp [a]
  | liquid => have a : f.speciesSite ∈ n.reaproCols := l1.mpr (Or.inr hk); simp [a]
  | ads => have a : f.speciesSite ∈ n.siteCols := l2 hk; simp [a]
  | ts =>
    have a : f.speciesSite ∉ n.siteCols := fun hm => by rcases l3 hm with e | e <;> rw [hk] at e <;> cases e
    have b : f.speciesSite ∉ n.reaproCols := fun hm => by rcases l1.mp hm with e | e <;> rw [hk] at e <;> cases e
    simp [a, b]
  | empty =>
    have b : f.speciesSite ∉ n.reaproCols := fun hm => by rcases l1.mp hm with e | e <;> rw [hk] at e <;> cases e
    simp [b, hsite hk]

theorem stateSum_lost {rxns : List Str} {n : Network} (h : parseNetwork rxns = .ok n) {fs : List Formula} (w : Str → Int)
    (hocc : ∀ f ∈ fs, OccursIn rxns f) :
    stateSum n.siteCols w fs + stateSum n.reaproCols w fs + ((fs.filter fun f => Dropped f).map fun f => (f.stoich : Int) * w f.speciesSite).sum
      = (fs.map fun f => (f.stoich : Int) * w f.speciesSite).sum := by
  induction fs with
  | nil => rfl
  | cons f fs ih =>
    have ih := ih (fun g hg => hocc g (by simp [hg]))
    have hd := dropped_iff h (hocc f (by simp))
    have hboth : ¬ (f.speciesSite ∈ n.siteCols ∧ f.speciesSite ∈ n.reaproCols) := by
      rintro ⟨a, b⟩
      obtain ⟨l1, l2, l3⟩ := listed_iff h (hocc f (by simp))
      rcases l1.mp b with e | e <;> rcases l3 a with e' | e' <;> rw [e] at e' <;> cases e'
    simp only [stateSum, List.map_cons, List.sum_cons] at ih ⊢
    by_cases a : f.speciesSite ∈ n.siteCols
    · have b : f.speciesSite ∉ n.reaproCols := fun b => hboth ⟨a, b⟩
      rw [List.filter_cons_of_neg (by simpa using fun hx => (hd.mp hx).1 a), if_pos a, if_neg b, ← ih]
      ring
    · by_cases b : f.speciesSite ∈ n.reaproCols
      · rw [List.filter_cons_of_neg (by simpa using fun hx => (hd.mp hx).2 b), if_neg a, if_pos b, ← ih]
        ring
      · rw [List.filter_cons_of_pos (by simpa using hd.mpr ⟨a, b⟩), if_neg a, if_neg b, ← ih, List.map_cons, List.sum_cons]
        ring

/-- **C10** For every reaction of every accepted network: what the matrix rows miss of an element, or of a site, is what the
formulas without a column hold in the last state less what they hold in the first. -/
theorem C10_lost (rxns : List Str) (n : Network) (h : parseNetwork rxns = .ok n) (S R : List (List Int)) (hM : n.stoichMatrices = .ok (S, R))
    (i : Nat) (states : List (List Formula)) (is fs : List Formula) (s r : List Int) (hst : n.rxns[i]? = some states)
    (his : states.head? = some is) (hfs : states.getLast? = some fs) (hs : S[i]? = some s) (hr : R[i]? = some r) :
    (∀ e, (List.zipWith (fun a x => a * nameCount e x) s n.siteCols).sum + (List.zipWith (fun a x => a * nameCount e x) r n.reaproCols).sum =
      lostAtoms e fs - lostAtoms e is) ∧
    ∀ t, (List.zipWith (fun a x => a * nameSites t x) s n.siteCols).sum + (List.zipWith (fun a x => a * nameSites t x) r n.reaproCols).sum =
      lostSites t fs - lostSites t is := by
  obtain ⟨h1, -⟩ := parseNetwork_ok h
  obtain ⟨hlen, hget⟩ := mapM_ok_inv h1
  unfold Network.stoichMatrices at hM
  cases hS : n.rxns.mapM (stoichRow n.siteCols) with
  | error _ => rw [hS] at hM; cases hM
  | ok S' =>
    cases hR : n.rxns.mapM (stoichRow n.reaproCols) with
    | error _ => rw [hS, hR] at hM; cases hM
    | ok R' =>
      rw [hS, hR] at hM; cases hM
      obtain ⟨lS, gS⟩ := mapM_ok_inv hS
      obtain ⟨lR, gR⟩ := mapM_ok_inv hR
      obtain ⟨hi, rfl⟩ := List.getElem?_eq_some_iff.mp hst
      obtain ⟨hiS, rfl⟩ := List.getElem?_eq_some_iff.mp hs
      obtain ⟨hiR, rfl⟩ := List.getElem?_eq_some_iff.mp hr
      have hp := hget i (by omega) hi
      obtain ⟨is', fs', e1, e2, hel, hsi⟩ := parseRxn_ends hp
      rw [his] at e1; cases e1
      rw [hfs] at e2; cases e2
      have occ : ∀ gs, (n.rxns[i].head? = some gs ∨ n.rxns[i].getLast? = some gs) →
          ∀ f ∈ gs, OccursIn rxns f := by
        intro gs hgs f hf
        refine ⟨rxns[i]'(by omega), List.getElem_mem _, _, (parseRxn_ok.mp hp).2, gs, ?_, hf⟩
        rcases hgs with hgs | hgs
        · exact List.mem_of_head? hgs
        · exact List.mem_of_getLast? hgs
      have hgood : ∀ gs, (n.rxns[i].head? = some gs ∨ n.rxns[i].getLast? = some gs) → ∀ f ∈ gs, ∃ ns, Good f ns := fun gs hgs f hf =>
        network_good h f ((mem_flat_iff h f).mpr (occ gs hgs f hf))
      constructor
      · intro e
        have tot : ∀ gs, (n.rxns[i].head? = some gs ∨ n.rxns[i].getLast? = some gs) →
            stateSum n.siteCols (nameCount e) gs + stateSum n.reaproCols (nameCount e) gs + lostAtoms e gs = (val (stateElements gs) e : Int) := by
          intro gs hgs
          unfold lostAtoms
          rw [stateSum_lost h (nameCount e) (occ gs hgs), val_stateElements, sum_int_cast, List.map_map]
          congr 1
          apply List.map_congr_left
          intro f hf
          obtain ⟨ns, hg⟩ := hgood gs hgs f hf
          rw [nameCount_good hg e]
          simp
        rw [wsum_stoichRow _ his hfs (gS i hi hiS), wsum_stoichRow _ his hfs (gR i hi hiR)]
        have t1 := tot is (Or.inl his)
        have t2 := tot fs (Or.inr hfs)
        rw [← hel e] at t2
        linarith
      · intro t
        have tot : ∀ gs, (n.rxns[i].head? = some gs ∨ n.rxns[i].getLast? = some gs) →
            stateSum n.siteCols (nameSites t) gs + stateSum n.reaproCols (nameSites t) gs + lostSites t gs = (val (stateSites gs) t : Int) := by
          intro gs hgs
          unfold lostSites
          rw [stateSum_lost h (nameSites t) (occ gs hgs), val_stateSites, sum_int_cast, List.map_map]
          congr 1
          apply List.map_congr_left
          intro f hf
          obtain ⟨ns, hg⟩ := hgood gs hgs f hf
          rw [nameSites_good hg t]
          simp only [Function.comp_def]
          split
          · push_cast; ring
          · simp
        rw [wsum_stoichRow _ his hfs (gS i hi hiS), wsum_stoichRow _ his hfs (gR i hi hiR)]
        have t1 := tot is (Or.inl his)
        have t2 := tot fs (Or.inr hfs)
        rw [← hsi t] at t2
        linarith

/-- A reaction that ends in a transition state: one atom of carbon, one of oxygen and two sites are missed. -/
example : ∃ n S R states is fs s r, parseNetwork [str! "CO_s + O_s -> CO-O_2s"] = .ok n ∧ n.stoichMatrices = .ok (S, R) ∧
    n.rxns[0]? = some states ∧ states.head? = some is ∧ states.getLast? = some fs ∧ S[0]? = some s ∧ R[0]? = some r ∧
    lostAtoms 'C' fs - lostAtoms 'C' is = 1 ∧ lostAtoms 'O' fs - lostAtoms 'O' is = 2 ∧ lostSites (str! "s") fs - lostSites (str! "s") is = 2 :=
  ⟨_, _, _, _, _, _, _, _, rfl, rfl, rfl, rfl, rfl, rfl, rfl, by decide, by decide, by decide⟩

/-! ## C66 -/

variable {K : Type} [Field K] [LinearOrder K] [IsStrictOrderedRing K]

/-- **C66** A correction of zero changes nothing exactly if all reactions written with two states have the barriers of a step
without a barrier of its own. -/
theorem C66_iff (rxns : List Str) (n : Network) (hn : parseNetwork rxns = .ok n)
    (r r' : Rel K) (h : correctAll (fun _ => .ok 0) n r = .ok r') :
    (∀ i < rxns.length, r'.gaf[i]? = r.gaf[i]? ∧ r'.gar[i]? = r.gar[i]? ∧ r'.dg[i]? = r.dg[i]?) ↔
    ∀ i (hi : i < rxns.length) states, eqnFormulas rxns[i] = .ok states → states.length = 2 →
      ∃ d, r.dg[i]? = some d ∧ r.gaf[i]? = some (max 0 d) ∧ r.gar[i]? = some (max 0 d - d) := by
  constructor
  · intro hall i hi states hs hl
    have hc : Agrees (fun _ => (0 : K)) (fun _ : Str => (.ok 0 : Py K)) := by
      intro s v hv; cases hv; rfl
    obtain ⟨-, -, -, -, i5⟩ := correctFrom_ok hc h
    obtain ⟨m1, m2⟩ := mapM_ok_inv (parseNetwork_ok hn).1
    obtain ⟨v, hv, hv'⟩ := i5 i (by omega)
    rw [Nat.zero_add] at hv hv'
    have he := (parseRxn_ok.mp (m2 i hi (by omega))).2
    have hse : states = n.rxns[i]'(by omega) := Except.ok.inj (hs.symm.trans he)
    rw [hse] at hl
    obtain ⟨a1, a2, a3⟩ := at?_ok hv
    obtain ⟨b1, b2, b3⟩ := at?_ok hv'
    have hz : ∀ fs, specDelta (fun _ => (0 : K)) fs = 0 := by intro fs; simp [specDelta]
    have hcr : changeRel v ((n.rxns[i]'(by omega)).map (specDelta fun _ => 0)) = ⟨max 0 v.dg, max 0 v.dg - v.dg, v.dg⟩ := by
      generalize n.rxns[i]'(by omega) = states at hl
      match states, hl with
      | [a, b], _ => simp [changeRel, hz]
    rw [hcr] at b1 b2 b3
    obtain ⟨c1, c2, c3⟩ := hall i hi
    exact ⟨v.dg, a3, by rw [← c1, b1], by rw [← c2, b2]⟩
  · intro hr i hi
    exact C66_zero_correction_partial rxns n hn r r' h hr i hi

/-! ### The theorems at these cases -/

example := C66_iff (K := ℚ) exEnergyRxns exCorrNet (by decide) ⟨[0, 1, 7 / 2], [2, 0, 4], [-2, 1, (-1 / 2 : ℚ)]⟩ ⟨[0, 1, 7 / 2], [2, 0, 4], [-2, 1, -1 / 2]⟩
  (by decide +kernel)

end Verif
