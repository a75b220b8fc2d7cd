import Verif.Model.Energy
import Verif.Lemmas.Network
import Mathlib.Tactic.Ring
import Mathlib.Tactic.FieldSimp
import Mathlib.Algebra.BigOperators.Group.List.Basic
set_option linter.unusedSectionVars false
namespace Verif
open Dict
variable {K : Type} [Field K] [LinearOrder K] [IsStrictOrderedRing K]

/-- The entry of the energy table used for a formula. -/
def energyKey (f : Formula) : Str :=
  if '*' ∈ f.speciesSite then '*' :: '_' :: f.site else f.speciesSite

/-- `G` is defined on the table `E` and agrees with it. -/
def Extends (G : Str → K) (E : Dict Str K) : Prop := ∀ k v, get? E k = some v → G k = v

theorem stateEnergyFrom_ok {E : Dict Str K} {fs : List Formula} {acc e : K} {G : Str → K}
    (hG : Extends G E) (h : stateEnergyFrom E fs acc = .ok e) :
    e = acc + (fs.map fun f => (f.stoich : K) * G (energyKey f)).sum := by
  induction fs generalizing acc with
  | nil => simp only [stateEnergyFrom] at h; cases h; simp
  | cons f fs ih =>
    have hk : (if '*' ∉ f.speciesSite then f.speciesSite else '*' :: '_' :: f.site) = energyKey f := by
      unfold energyKey; split <;> simp_all
    simp only [stateEnergyFrom, dictGet, hk] at h
    cases hg : get? E (energyKey f) with
    | none => rw [hg] at h; cases h
    | some v =>
      rw [hg] at h
      have := ih h
      rw [this, ← hG _ _ hg, List.map_cons, List.sum_cons]
      ring

theorem stateEnergyFrom_exists {E : Dict Str K} {fs : List Formula} {acc : K}
    (h : ∀ f ∈ fs, energyKey f ∈ keys E) : ∃ e, stateEnergyFrom E fs acc = .ok e := by
  induction fs generalizing acc with
  | nil => exact ⟨acc, rfl⟩
  | cons f fs ih =>
    have hk : (if '*' ∉ f.speciesSite then f.speciesSite else '*' :: '_' :: f.site) = energyKey f := by
      unfold energyKey; split <;> simp_all
    obtain ⟨v, hv⟩ := Option.isSome_iff_exists.mp (get?_isSome.mpr (h f (by simp)))
    simp only [stateEnergyFrom, dictGet, hk, hv]
    exact ih (fun g hg => h g (by simp [hg]))

theorem stateEnergyFrom_error {E : Dict Str K} {fs : List Formula} {acc : K}
    (h : ∃ f ∈ fs, energyKey f ∉ keys E) : stateEnergyFrom E fs acc = .error .KeyError := by
  induction fs generalizing acc with
  | nil => obtain ⟨f, hf, -⟩ := h; simp at hf
  | cons f fs ih =>
    have hk : (if '*' ∉ f.speciesSite then f.speciesSite else '*' :: '_' :: f.site) = energyKey f := by
      unfold energyKey; split <;> simp_all
    simp only [stateEnergyFrom, dictGet, hk]
    cases hv : get? E (energyKey f) with
    | none => rfl
    | some v =>
      obtain ⟨g, hg, hgk⟩ := h
      rcases List.mem_cons.mp hg with rfl | hg
      · exact absurd (get?_isSome.mp (by rw [hv]; rfl)) hgk
      · exact ih ⟨g, hg, hgk⟩

/-- A table extended by zero outside its entries. -/
theorem exists_extends (E : Dict Str K) : ∃ G : Str → K, Extends G E :=
  ⟨fun k => (get? E k).elim 0 id, fun k v h => by simp [h]⟩

theorem eqnStates_length {s : Str} {l : List Str} (h : eqnStates s = .ok l) : l.length ≤ 3 := by
  unfold eqnStates at h
  split at h
  · cases h
  · rename_i g1 g2 g3 _
    cases h
    rw [List.length_map]
    refine (List.length_filter_le _ _).trans ?_
    cases g2 <;> simp

theorem eqnFormulas_length {s : Str} {l : List (List Formula)} (h : eqnFormulas s = .ok l) :
    l.length ≤ 3 := by
  unfold eqnFormulas at h
  cases hs : eqnStates s with
  | error e => rw [hs] at h; cases h
  | ok k =>
    rw [hs] at h
    have h : k.mapM stateFormulas = .ok l := h
    rw [(mapM_ok_inv h).1]
    exact eqnStates_length hs

/-- What a successful `singleRelative` has computed. -/
theorem singleRelative_ok {E : Dict Str K} {s : Str} {v : Rel1 K} (h : singleRelative E s = .ok v) :
    ∃ states is fs gis gfs gts, eqnFormulas s = .ok states ∧ states.head? = some is ∧
      states.getLast? = some fs ∧ stateEnergy E is = .ok gis ∧ stateEnergy E fs = .ok gfs ∧
      v = ⟨gts - gis, gts - gfs, gfs - gis⟩ ∧
      (states.length = 2 → gts = max gis gfs) ∧
      (∀ a ts b, states = [a, ts, b] → stateEnergy E ts = .ok gts) ∧
      (states.length = 1 → gts = 0) := by
  unfold singleRelative at h
  cases hst : eqnFormulas s with
  | error e => rw [hst] at h; cases h
  | ok states =>
    rw [hst] at h
    have hlen := eqnFormulas_length hst
    simp only [bind, Except.bind] at h
    cases states with
    | nil => simp at h
    | cons is rest =>
      have hl : (is :: rest).getLast? = some ((is :: rest).getLast (by simp)) :=
        List.getLast?_eq_some_getLast _
      rw [hl] at h
      simp only [List.head?_cons] at h
      cases h1 : stateEnergy E is with
      | error e => rw [h1] at h; cases h
      | ok gis =>
        rw [h1] at h
        simp only at h
        cases h2 : stateEnergy E ((is :: rest).getLast (by simp)) with
        | error e => rw [h2] at h; cases h
        | ok gfs =>
          rw [h2] at h
          simp only at h
          match rest, h, hlen, hl, h2 with
          | [], h, _, hl, h2 =>
            simp [pure, Except.pure] at h
            exact ⟨_, is, _, gis, gfs, 0, rfl, rfl, hl, h1, h2, by rw [← h]; simp, by simp, by simp, by simp⟩
          | [b], h, _, hl, h2 =>
            simp only [List.length_cons, List.length_nil, if_true, pure, Except.pure] at h
            cases h
            exact ⟨_, is, _, gis, gfs, _, rfl, rfl, hl, h1, h2, rfl, by simp, by simp, by simp⟩
          | [b, c], h, _, hl, h2 =>
            simp only [List.length_cons, List.length_nil, pure, Except.pure] at h
            simp at h
            cases h3 : stateEnergy E b with
            | error e => rw [h3] at h; cases h
            | ok gts =>
              rw [h3] at h
              cases h
              refine ⟨_, is, _, gis, gfs, gts, rfl, rfl, hl, h1, h2, rfl, by simp, ?_, by simp⟩
              intro a ts b e
              cases e
              exact h3
          | b :: c :: d :: r, _, hlen, _, _ => simp at hlen

/-- `singleRelative` succeeds when every species of the reaction has an energy. -/
theorem singleRelative_exists {E : Dict Str K} {s : Str} {states : List (List Formula)}
    (h : eqnFormulas s = .ok states) (hne : states ≠ [])
    (hE : ∀ fs ∈ states, ∀ f ∈ fs, energyKey f ∈ keys E) : ∃ v, singleRelative E s = .ok v := by
  have hlen := eqnFormulas_length h
  have key : ∀ fs ∈ states, ∃ e, stateEnergy E fs = .ok e :=
    fun fs hfs => stateEnergyFrom_exists (hE fs hfs)
  unfold singleRelative
  rw [h]
  match states, hne, hlen, key with
  | [a], _, _, key =>
    obtain ⟨x, hx⟩ := key a (by simp)
    simp only [bind, Except.bind, List.head?_cons, List.getLast?_singleton, hx]
    exact ⟨_, rfl⟩
  | [a, b], _, _, key =>
    obtain ⟨x, hx⟩ := key a (by simp)
    obtain ⟨y, hy⟩ := key b (by simp)
    simp only [bind, Except.bind, List.head?_cons, List.getLast?_cons_cons, List.getLast?_singleton,
      hx, hy]
    exact ⟨_, rfl⟩
  | [a, b, c], _, _, key =>
    obtain ⟨x, hx⟩ := key a (by simp)
    obtain ⟨y, hy⟩ := key b (by simp)
    obtain ⟨z, hz⟩ := key c (by simp)
    simp only [bind, Except.bind, List.head?_cons, List.getLast?_cons_cons, List.getLast?_singleton,
      hx, hz]
    simp [hy, pure, Except.pure]
  | a :: b :: c :: d :: r, _, hlen, _ => simp at hlen

theorem mapM_const_error {α β : Type} {e : PyErr} {l : List α} (h : l ≠ []) :
    l.mapM (fun _ => (.error e : Py β)) = .error e := by
  cases l with
  | nil => exact absurd rfl h
  | cons x l => rw [List.mapM_cons]; rfl

theorem relativeFromAbsolute_ok {E : Dict Str K} {rxns : List Str} {r : Rel K}
    (h : relativeFromAbsolute (some E) rxns = .ok r) :
    ∃ l : List (Rel1 K), rxns.mapM (singleRelative E) = .ok l ∧
      r = ⟨l.map (·.gaf), l.map (·.gar), l.map (·.dg)⟩ := by
  unfold relativeFromAbsolute at h
  cases hl : rxns.mapM (singleRelative E) with
  | error e =>
    have : (rxns.mapM fun r => match some E with
      | none => (.error .AttributeError : Py (Rel1 K))
      | some E => singleRelative E r) = .error e := hl
    rw [this] at h; cases h
  | ok l =>
    have : (rxns.mapM fun r => match some E with
      | none => (.error .AttributeError : Py (Rel1 K))
      | some E => singleRelative E r) = .ok l := hl
    rw [this] at h; cases h
    exact ⟨l, rfl, rfl⟩

end Verif
