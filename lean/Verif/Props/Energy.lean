import Verif.Lemmas.Energy
import Mathlib.Algebra.BigOperators.Ring.Finset
import Mathlib.Tactic.NormNum
import Mathlib.Data.Rat.Defs
import Mathlib.Algebra.Order.Ring.Rat
/-
Theorems about the energies of reactions: C12 (relative energies from absolute ones), C13
(normalisation of relative energy data), C14 and C66 (corrections).
-/
set_option linter.unusedSectionVars false
namespace Verif
open Dict
variable {K : Type} [Field K] [LinearOrder K] [IsStrictOrderedRing K]

/-! ## C12 -/

/-- Specification: the energy of a state is the sum of coefficient times energy of the species;
`G` gives the energies. An empty site is looked up as `*_` followed by the site name. -/
def specEnergy (G : Str → K) (fs : List Formula) : K :=
  (fs.map fun f => (f.stoich : K) *
    G (if '*' ∈ f.speciesSite then '*' :: '_' :: f.site else f.speciesSite)).sum

/-- The energy of a state is exactly the specified sum when all species are in the table, and a
`KeyError` otherwise. -/
theorem C12_state_energy (E : Dict Str K) (G : Str → K) (hG : Extends G E) (fs : List Formula) :
    (stateEnergy E fs = .ok (specEnergy G fs) ∧ ∀ f ∈ fs, energyKey f ∈ keys E) ∨
    (stateEnergy E fs = .error .KeyError ∧ ∃ f ∈ fs, energyKey f ∉ keys E) := by
  by_cases h : ∀ f ∈ fs, energyKey f ∈ keys E
  · left
    obtain ⟨e, he⟩ := stateEnergyFrom_exists (acc := 0) h
    have := stateEnergyFrom_ok hG he
    refine ⟨?_, h⟩
    unfold stateEnergy
    rw [he, this, zero_add]
    rfl
  · right
    push Not at h
    exact ⟨stateEnergyFrom_error h, h⟩

theorem stateEnergy_ok {E : Dict Str K} {G : Str → K} (hG : Extends G E) {fs : List Formula} {e : K}
    (h : stateEnergy E fs = .ok e) : e = specEnergy G fs ∧ ∀ f ∈ fs, energyKey f ∈ keys E := by
  rcases C12_state_energy E G hG fs with ⟨h1, h2⟩ | ⟨h1, -⟩
  · rw [h1] at h; cases h; exact ⟨rfl, h2⟩
  · rw [h1] at h; cases h

/-- Energies of one reaction. The reaction energy is final minus initial state energy, the
barriers differ by it; without a transition state both barriers are non-negative and one of them
is zero; with a transition state the barriers are measured from its energy. -/
theorem C12_single_reaction (E : Dict Str K) (G : Str → K) (hG : Extends G E) (s : Str) (v : Rel1 K)
    (h : singleRelative E s = .ok v) :
    ∃ states is fs, eqnFormulas s = .ok states ∧ states.head? = some is ∧ states.getLast? = some fs ∧
      v.gaf - v.gar = v.dg ∧ v.dg = specEnergy G fs - specEnergy G is ∧
      (states.length = 2 → 0 ≤ v.gaf ∧ 0 ≤ v.gar ∧ (v.gaf = 0 ∨ v.gar = 0)) ∧
      (∀ a ts b, states = [a, ts, b] → v.gaf = specEnergy G ts - specEnergy G is ∧
        v.gar = specEnergy G ts - specEnergy G fs) := by
  obtain ⟨states, is, fs, gis, gfs, gts, h1, h2, h3, h4, h5, rfl, h7, h8, -⟩ := singleRelative_ok h
  refine ⟨states, is, fs, h1, h2, h3, ?_, ?_, ?_, ?_⟩
  · dsimp only; ring
  · rw [(stateEnergy_ok hG h4).1, (stateEnergy_ok hG h5).1]
  · intro hl
    rw [h7 hl]
    dsimp only
    refine ⟨sub_nonneg.mpr (le_max_left _ _), sub_nonneg.mpr (le_max_right _ _), ?_⟩
    rcases le_total gis gfs with h | h
    · right; rw [max_eq_right h, sub_self]
    · left; rw [max_eq_left h, sub_self]
  · intro a ts b e
    dsimp only
    rw [(stateEnergy_ok hG (h8 a ts b e)).1, (stateEnergy_ok hG h4).1, (stateEnergy_ok hG h5).1]
    exact ⟨rfl, rfl⟩

/-- The lists of the model: one entry per reaction, in order, each computed from that reaction. -/
theorem C12_lists (E : Dict Str K) (rxns : List Str) (r : Rel K)
    (h : relativeFromAbsolute (some E) rxns = .ok r) :
    r.gaf.length = rxns.length ∧ r.gar.length = rxns.length ∧ r.dg.length = rxns.length ∧
    ∀ i (hi : i < rxns.length), ∃ v, singleRelative E rxns[i] = .ok v ∧
      r.gaf[i]? = some v.gaf ∧ r.gar[i]? = some v.gar ∧ r.dg[i]? = some v.dg := by
  obtain ⟨l, hl, rfl⟩ := relativeFromAbsolute_ok h
  obtain ⟨h1, h2⟩ := mapM_ok_inv hl
  refine ⟨by simp [h1], by simp [h1], by simp [h1], ?_⟩
  intro i hi
  refine ⟨l[i]'(by omega), h2 i hi (by omega), ?_, ?_, ?_⟩ <;>
    simp [h1, hi]

/-- Reading succeeds exactly when the energies are complete; otherwise `KeyError`, and without
absolute energies `AttributeError`. -/
theorem C12_complete_tables (E : Dict Str K) (rxns : List Str) (n : Network)
    (hn : parseNetwork rxns = .ok n) :
    ((∀ fss ∈ n.rxns, ∀ fs ∈ fss, ∀ f ∈ fs, energyKey f ∈ keys E) →
      ∃ r, relativeFromAbsolute (some E) rxns = .ok r) ∧
    (rxns ≠ [] → relativeFromAbsolute (K := K) none rxns = .error .AttributeError) := by
  constructor
  · intro hE
    have hm := (parseNetwork_ok hn).1
    have : ∃ l, rxns.mapM (singleRelative E) = .ok l := by
      apply mapM_ok_exists
      intro s hs
      obtain ⟨fss, hfss, hp⟩ := (mapM_ok_mem hm).2 s hs
      obtain ⟨first, rest, e, -⟩ := parseRxn_states hp
      exact singleRelative_exists (parseRxn_ok.mp hp).2 (by rw [e]; simp) (hE fss hfss)
    obtain ⟨l, hl⟩ := this
    refine ⟨⟨l.map (·.gaf), l.map (·.gar), l.map (·.dg)⟩, ?_⟩
    unfold relativeFromAbsolute
    have : (rxns.mapM fun r => match some E with
      | none => (.error .AttributeError : Py (Rel1 K))
      | some E => singleRelative E r) = .ok l := hl
    rw [this]; rfl
  · intro hne
    unfold relativeFromAbsolute
    have : (rxns.mapM fun r => match (none : Option (Dict Str K)) with
      | none => (.error .AttributeError : Py (Rel1 K))
      | some E => singleRelative E r) = .error .AttributeError := mapM_const_error hne
    rw [this]; rfl

/-- Reading the reverse equation swaps the barriers and negates the reaction energy. -/
theorem C12_reversal (E : Dict Str K) (s t : Str) (v : Rel1 K) (h : eqnRevert s = .ok t)
    (hv : singleRelative E s = .ok v) :
    singleRelative E t = .ok ⟨v.gar, v.gaf, -v.dg⟩ := by
  obtain ⟨G, hG⟩ := exists_extends E
  obtain ⟨states, is, fs, gis, gfs, gts, h1, h2, h3, h4, h5, rfl, h7, h8, h9⟩ := singleRelative_ok hv
  have ht := eqnFormulas_revert h
  rw [h1] at ht
  have ht : eqnFormulas t = .ok states.reverse := ht
  have hlen := eqnFormulas_length h1
  obtain ⟨l, hl1, hl2, -⟩ := eqnRevert_states h
  have hlen' : states.length = l.length := by
    unfold eqnFormulas at h1
    rw [hl1] at h1
    exact (mapM_ok_inv (h1 : l.mapM stateFormulas = .ok states)).1
  unfold singleRelative
  rw [ht]
  match states, h2, h3, h7, h8, hlen' with
  | [a, b], h2, h3, h7, h8, _ =>
    simp only [List.head?_cons, List.getLast?_cons_cons, List.getLast?_singleton, Option.some.injEq] at h2 h3
    subst h2 h3
    simp only [bind, Except.bind, List.reverse_cons, List.reverse_nil, List.nil_append, List.cons_append,
      List.head?_cons, List.getLast?_cons_cons, List.getLast?_singleton, h4, h5, List.length_cons,
      List.length_nil, if_true, pure, Except.pure]
    rw [h7 rfl, max_comm]
    simp
  | [a, m, b], h2, h3, h7, h8, _ =>
    simp only [List.head?_cons, List.getLast?_cons_cons, List.getLast?_singleton, Option.some.injEq] at h2 h3
    subst h2 h3
    simp only [bind, Except.bind, List.reverse_cons, List.reverse_nil, List.nil_append, List.cons_append,
      List.head?_cons, List.getLast?_cons_cons, List.getLast?_singleton, h4, h5, List.length_cons,
      List.length_nil, pure, Except.pure]
    simp [h8 a m b rfl]
  | [a], _, _, _, _, hl' => simp at hl'; omega
  | [], h2, _, _, _, _ => simp at h2
  | a :: b :: c :: d :: r, _, _, _, _, _ => simp at hlen

/-- Specification: total coefficient of an entry of the energy table in a state. -/
def keyCoef (k : Str) (fs : List Formula) : Nat :=
  ((fs.filter fun f => energyKey f = k).map (·.stoich)).sum

/-- Specification: net coefficient (final minus initial) of an entry of the energy table in a
reaction text. -/
def netCoef (k : Str) (s : Str) : K :=
  match eqnFormulas s with
  | .ok states =>
    match states.head?, states.getLast? with
    | some is, some fs => (keyCoef k fs : K) - (keyCoef k is : K)
    | _, _ => 0
  | .error _ => 0

theorem specEnergy_keys (G : Str → K) (S : Finset Str) (fs : List Formula)
    (h : ∀ f ∈ fs, energyKey f ∈ S) : specEnergy G fs = ∑ k ∈ S, (keyCoef k fs : K) * G k := by
  induction fs with
  | nil => simp [specEnergy, keyCoef]
  | cons f fs ih =>
    have h1 : specEnergy G (f :: fs) = (f.stoich : K) * G (energyKey f) + specEnergy G fs := by
      simp only [specEnergy, List.map_cons, List.sum_cons]
      rfl
    rw [h1, ih (fun g hg => h g (by simp [hg]))]
    have h2 : ∀ k, (keyCoef k (f :: fs) : K) * G k =
        (if energyKey f = k then (f.stoich : K) * G k else 0) + (keyCoef k fs : K) * G k := by
      intro k
      by_cases hk : energyKey f = k
      · simp [keyCoef, hk, add_mul]
      · simp [keyCoef, hk]
    simp only [h2, Finset.sum_add_distrib, Finset.sum_ite_eq, h f (by simp), if_true]

theorem dg_eq_net {E : Dict Str K} {G : Str → K} (hG : Extends G E) {s : Str} {v : Rel1 K}
    (h : singleRelative E s = .ok v) :
    v.dg = ∑ k ∈ (keys E).toFinset, netCoef k s * G k := by
  obtain ⟨states, is, fs, gis, gfs, gts, h1, h2, h3, h4, h5, rfl, -⟩ := singleRelative_ok h
  obtain ⟨e1, m1⟩ := stateEnergy_ok hG h4
  obtain ⟨e2, m2⟩ := stateEnergy_ok hG h5
  dsimp only
  rw [e1, e2, specEnergy_keys G _ fs (fun f hf => List.mem_toFinset.mpr (m2 f hf)),
    specEnergy_keys G _ is (fun f hf => List.mem_toFinset.mpr (m1 f hf)), ← Finset.sum_sub_distrib]
  refine Finset.sum_congr rfl fun k _ => ?_
  simp only [netCoef, h1, h2, h3]
  ring

/-- Hess's law. Any combination of reactions (with arbitrary multiplicities, negative ones running
backwards) in which every species cancels has total reaction energy zero. Closed cycles of
reactions are the special case of multiplicities one. -/
theorem C12_cycles (E : Dict Str K) (rxns : List Str) (r : Rel K) (c : List K)
    (h : relativeFromAbsolute (some E) rxns = .ok r)
    (hnet : ∀ k, ((c.zip rxns).map fun p => p.1 * netCoef k p.2).sum = 0) :
    ((c.zip r.dg).map fun p => p.1 * p.2).sum = 0 := by
  obtain ⟨G, hG⟩ := exists_extends E
  obtain ⟨l, hl, rfl⟩ := relativeFromAbsolute_ok h
  have key : ∀ (rxns : List Str) (l : List (Rel1 K)) (c : List K), rxns.mapM (singleRelative E) = .ok l →
      ((c.zip (l.map (·.dg))).map fun p => p.1 * p.2).sum =
      ∑ k ∈ (keys E).toFinset, ((c.zip rxns).map fun p => p.1 * netCoef k p.2).sum * G k := by
    intro rxns
    induction rxns with
    | nil => intro l c h; cases h; simp
    | cons s rxns ih =>
      intro l c h
      rw [List.mapM_cons] at h
      cases hs : singleRelative E s with
      | error e => rw [hs] at h; cases h
      | ok v =>
        rw [hs] at h
        cases hr : rxns.mapM (singleRelative E) with
        | error e => rw [hr] at h; cases h
        | ok l' =>
          rw [hr] at h
          cases h
          cases c with
          | nil => simp
          | cons a c =>
            simp only [List.map_cons, List.zip_cons_cons, List.sum_cons, ih l' c hr, add_mul,
              Finset.sum_add_distrib]
            rw [dg_eq_net hG hs, Finset.mul_sum]
            congr 1
            exact Finset.sum_congr rfl fun k _ => by ring
  dsimp only
  rw [key rxns l c hl]
  exact Finset.sum_eq_zero fun k _ => by rw [hnet k, zero_mul]

/-- The owner after `AbsoluteEnergyParser.parse_data`: on success both kinds of energies are
those of the file; on failure the relative energies are unchanged, although the absolute ones
are already those of the file, so that the two no longer belong together. -/
theorem C12_owner (rxns : List Str) (file : Option (Dict Str K)) (o o' : EnergyState K) (e : Py Unit)
    (h : parseAbsolute rxns file o = (o', e)) :
    (∀ E, file = some E → e = .ok () → ∃ r, relativeFromAbsolute (some E) rxns = .ok r ∧
      o'.absolute = some E ∧ o'.relative = some r) ∧
    (e ≠ .ok () → o'.relative = o.relative ∧ o'.absolute = file.or o.absolute) := by
  unfold parseAbsolute at h
  cases file with
  | none =>
    cases h
    exact ⟨fun E hE => (nomatch hE), fun _ => ⟨rfl, rfl⟩⟩
  | some E =>
    dsimp only at h
    cases hr : relativeFromAbsolute (some E) rxns with
    | error e' =>
      rw [hr] at h; cases h
      exact ⟨fun _ _ he => (nomatch he), fun _ => ⟨rfl, rfl⟩⟩
    | ok r =>
      rw [hr] at h; cases h
      refine ⟨?_, by intro he; exact absurd rfl he⟩
      intro E' hE' _
      cases hE'
      exact ⟨r, hr, rfl, rfl⟩

/-- A table of energies for the example network. -/
def exEnergies : Dict Str ℚ :=
  [(str! "*_s", 0), (str! "CO_g", 1), (str! "CO_s", -1), (str! "O2_g", 2), (str! "O_s", -2),
   (str! "CO-O_2s", 1 / 2), (str! "CO2_g", -3)]

def exEnergyRxns : List Str := [str! "CO_g + *_s -> CO_s", str! "O2_g + 2*_s -> 2O_s",
  str! "CO_s + O_s <-> CO-O_2s -> CO2_g + 2*_s"]

/-- One adsorption, one dissociative adsorption, one reaction with a transition state. -/
example : relativeFromAbsolute (some exEnergies) exEnergyRxns =
    .ok ⟨[0, 0, 7 / 2], [2, 6, 7 / 2], [-2, -6, 0]⟩ := by decide +kernel

/-- A closed cycle of three reactions meets the hypotheses of `C12_cycles`. -/
example : let rxns := [str! "A_s -> B_s", str! "B_s <-> X-Y_s -> C_s", str! "C_s -> A_s"]
    let E : Dict Str ℚ := [(str! "A_s", 1), (str! "B_s", 3), (str! "C_s", -2), (str! "X-Y_s", 5)]
    relativeFromAbsolute (some E) rxns = .ok ⟨[2, 2, 3], [0, 7, 0], [2, -5, 3]⟩ ∧
    (∀ k, ((([1, 1, 1] : List ℚ).zip rxns).map fun p => p.1 * netCoef k p.2).sum = 0) := by
  refine ⟨by decide +kernel, fun k => ?_⟩
  have h1 : eqnFormulas (str! "A_s -> B_s") = .ok
      [[⟨str! "A_s", 1, str! "A", 1, str! "s", str! "A_s"⟩],
       [⟨str! "B_s", 1, str! "B", 1, str! "s", str! "B_s"⟩]] := by decide
  have h2 : eqnFormulas (str! "B_s <-> X-Y_s -> C_s") = .ok
      [[⟨str! "B_s", 1, str! "B", 1, str! "s", str! "B_s"⟩],
       [⟨str! "X-Y_s", 1, str! "X-Y", 1, str! "s", str! "X-Y_s"⟩],
       [⟨str! "C_s", 1, str! "C", 1, str! "s", str! "C_s"⟩]] := by decide
  have h3 : eqnFormulas (str! "C_s -> A_s") = .ok
      [[⟨str! "C_s", 1, str! "C", 1, str! "s", str! "C_s"⟩],
       [⟨str! "A_s", 1, str! "A", 1, str! "s", str! "A_s"⟩]] := by decide
  simp only [List.zip_cons_cons, List.map_cons, List.sum_cons, netCoef, h1, h2, h3, List.head?_cons,
    List.getLast?_cons_cons, List.getLast?_singleton, List.zip_nil_right, List.map_nil, List.sum_nil]
  ring

/-! ## C13 -/

/-- The barrier given is (up to 1e-10) zero and the step is endothermic. -/
def BarrierlessUphill (ga dg : K) : Prop := -(1 / 10 ^ 10) < ga ∧ ga < 1 / 10 ^ 10 ∧ 0 < dg

theorem fixBarrier_eq (ga dg : K) :
    (BarrierlessUphill ga dg → fixBarrier ga dg = dg) ∧
    (¬ BarrierlessUphill ga dg → fixBarrier ga dg = ga) := by
  have : (|ga - 0| < 1 / 10 ^ 10 ∧ dg > 0) ↔ BarrierlessUphill ga dg := by
    unfold BarrierlessUphill
    rw [sub_zero, abs_lt, and_assoc]
  unfold fixBarrier
  constructor
  · intro h; rw [if_pos (this.mpr h)]
  · intro h; rw [if_neg (fun h' => h (this.mp h'))]

theorem checkRelData_ok {n : Nat} {ga dg : List K} (h : checkRelData n ⟨some ga, some dg⟩ = .ok ()) :
    ga.length = n ∧ dg.length = n := by
  unfold checkRelData at h
  dsimp only at h
  split at h
  · cases h
  · rename_i h1
    split at h
    · cases h
    · rename_i h2
      simpa using And.intro h1 h2

/-- What a successful reading has stored. -/
theorem C13_normalised (n : Nat) (file arg : Option (RelData K)) (o o' : EnergyState K)
    (h : parseRelative n file arg o = (o', .ok ())) :
    ∃ ga dg r, file.or arg = some ⟨some ga, some dg⟩ ∧ ga.length = n ∧ dg.length = n ∧
      o' = { o with relative := some r } ∧
      r.gaf.length = n ∧ r.gar.length = n ∧ r.dg = dg ∧
      ∀ i (_ : i < n) (h1 : i < ga.length) (h2 : i < dg.length),
        ∃ a, r.gaf[i]? = some a ∧ r.gar[i]? = some (a - dg[i]) ∧
          (BarrierlessUphill ga[i] dg[i] → a = dg[i] ∧ r.gar[i]? = some 0) ∧
          (¬ BarrierlessUphill ga[i] dg[i] → a = ga[i]) := by
  unfold parseRelative at h
  cases hd : file.or arg with
  | none => rw [hd] at h; simp at h
  | some d =>
    rw [hd] at h
    obtain ⟨ga, dg⟩ := d
    dsimp only at h
    cases hc : checkRelData n ⟨ga, dg⟩ with
    | error e => rw [hc] at h; simp at h
    | ok u =>
      rw [hc] at h
      dsimp only at h
      cases ga with
      | none => simp [relFromData] at h
      | some ga =>
        cases dg with
        | none => simp [relFromData] at h
        | some dg =>
          obtain ⟨l1, l2⟩ := checkRelData_ok hc
          simp only [relFromData, Prod.mk.injEq, and_true] at h
          refine ⟨ga, dg, _, rfl, l1, l2, h.symm, by simp [l1, l2], by simp [l1, l2], ?_, ?_⟩
          · exact List.map_snd_zip (by omega)
          · intro i hi h1 h2
            obtain ⟨f1, f2⟩ := fixBarrier_eq ga[i] dg[i]
            refine ⟨fixBarrier ga[i] dg[i], ?_, ?_, ?_, f2⟩
            · simp [h1, h2]
            · simp [h1, h2]
            · intro hb
              refine ⟨f1 hb, ?_⟩
              simp [h1, h2, f1 hb]

/-- Normalising again changes nothing: reading what has been stored stores it again. -/
theorem C13_idempotent (n : Nat) (file arg : Option (RelData K)) (o o' o2 : EnergyState K) (r : Rel K)
    (h : parseRelative n file arg o = (o', .ok ())) (hr : o'.relative = some r) :
    parseRelative n (some ⟨some r.gaf, some r.dg⟩) none o2 = ({ o2 with relative := some r }, .ok ()) := by
  obtain ⟨ga, dg, r', -, l1, l2, rfl, g1, g2, hdg, hi⟩ := C13_normalised n file arg o o' h
  simp only [Option.some.injEq] at hr
  subst hr
  have hr2 : relFromData ⟨some r'.gaf, some r'.dg⟩ = .ok r' := by
    obtain ⟨x, y, z⟩ := r'
    simp only at hdg g1 g2 hi
    subst hdg
    simp only [relFromData, Except.ok.injEq, Rel.mk.injEq]
    have e1 : (x.zip z).map (fun p => fixBarrier p.1 p.2) = x := by
      apply List.ext_getElem (by simp; omega)
      intro i h1 h2
      obtain ⟨a, e, -, hb, hn⟩ := hi i (by omega) (by omega) (by omega)
      rw [List.getElem?_eq_getElem h2, Option.some.injEq] at e
      obtain ⟨f1, f2⟩ := fixBarrier_eq x[i] (z[i]'(by omega))
      simp only [List.getElem_map, List.getElem_zip]
      by_cases hB : BarrierlessUphill x[i] (z[i]'(by omega))
      · rw [f1 hB]
        by_cases hB' : BarrierlessUphill (ga[i]'(by omega)) (z[i]'(by omega))
        · rw [e, (hb hB').1]
        · exfalso
          rw [e, hn hB'] at hB
          exact hB' hB
      · exact f2 hB
    have e2 : (x.zip z).map (fun p => p.2) = z := List.map_snd_zip (by omega)
    refine ⟨e1, ?_, e2⟩
    rw [e1, e2]
    apply List.ext_getElem (by simp; omega)
    intro i h1 h2
    obtain ⟨a, e, e', -⟩ := hi i (by omega) (by omega) (by omega)
    rw [List.getElem?_eq_getElem (by omega), Option.some.injEq] at e e'
    simp only [List.getElem_map, List.getElem_zip, e, e']
  unfold parseRelative
  have hc : checkRelData n ⟨some r'.gaf, some r'.dg⟩ = .ok () := by
    simp [checkRelData, g1, hdg, l2]
  simp only [Option.or_none, hc, hr2]

/-- Data with a list of the wrong length is rejected with `ValueError`; missing data, a missing
entry are rejected too; every failure leaves the energies of the model as they were. -/
theorem C13_rejected (n : Nat) (file arg : Option (RelData K)) (o : EnergyState K) :
    (∀ d, file.or arg = some d → (∃ l, (d.ga = some l ∨ d.dg = some l) ∧ l.length ≠ n) →
      parseRelative n file arg o = (o, .error .ValueError)) ∧
    (file = none → arg = none → parseRelative n file arg o = (o, .error .IOError)) ∧
    (∀ d, file.or arg = some d → (d.ga = none ∨ d.dg = none) →
      ∃ e, parseRelative n file arg o = (o, .error e)) ∧
    (∀ o' e, parseRelative n file arg o = (o', .error e) → o' = o) := by
  refine ⟨?_, ?_, ?_, ?_⟩
  · rintro ⟨ga, dg⟩ hd ⟨l, hl, hn⟩
    unfold parseRelative
    rw [hd]
    have : checkRelData n ⟨ga, dg⟩ = .error .ValueError := by
      unfold checkRelData
      dsimp only at hl ⊢
      rcases hl with rfl | rfl
      · rw [if_pos (by simpa using hn)]
      · cases ga <;> simp [hn]
    simp only [this]
  · rintro rfl rfl; rfl
  · rintro ⟨ga, dg⟩ hd hnone
    unfold parseRelative
    rw [hd]
    dsimp only
    cases checkRelData n ⟨ga, dg⟩ with
    | error e => exact ⟨e, rfl⟩
    | ok u =>
      refine ⟨.KeyError, ?_⟩
      rcases hnone with h | h
      · dsimp only at h; subst h; rfl
      · dsimp only at h; subst h; cases ga <;> rfl
  · intro o' e h
    unfold parseRelative at h
    split at h
    · cases h; rfl
    · split at h
      · cases h; rfl
      · split at h
        · cases h; rfl
        · cases h

/-- A file takes precedence over the argument. -/
theorem C13_file_first (n : Nat) (d : RelData K) (arg : Option (RelData K)) (o : EnergyState K) :
    parseRelative n (some d) arg o = parseRelative n (some d) none o := rfl

/-- A barrierless uphill step, a barrierless downhill step and an activated step. -/
example : parseRelative 3 none (some ⟨some [0, 0, 1], some [2, -1, (1 / 2 : ℚ)]⟩) {} =
    ({ relative := some ⟨[2, 0, 1], [0, 1, 1 / 2], [2, -1, 1 / 2]⟩ }, .ok ()) := by decide +kernel

/-- Wrong length. -/
example : parseRelative 2 none (some ⟨some [0], some [2, (-1 : ℚ)]⟩) {} =
    ({}, .error .ValueError) := by decide +kernel

/-! ## C14 corrections -/

/-- Specification: the correction of a state is the sum of the corrections of its formulas. -/
def specDelta (c : Str → K) (fs : List Formula) : K := (fs.map fun f => c f.text).sum

/-- `c` gives the values of the correction function. -/
def Agrees (c : Str → K) (corr : Str → Py K) : Prop := ∀ s v, corr s = .ok v → c s = v

theorem stateDelta_ok {corr : Str → Py K} {c : Str → K} (hc : Agrees c corr) {fs : List Formula}
    {acc d : K} (h : stateDelta corr fs acc = .ok d) : d = acc + specDelta c fs := by
  induction fs generalizing acc with
  | nil => simp only [stateDelta] at h; cases h; simp [specDelta]
  | cons f fs ih =>
    simp only [stateDelta] at h
    cases hf : corr f.text with
    | error e => rw [hf] at h; cases h
    | ok v =>
      rw [hf] at h
      have := ih h
      rw [this, ← hc _ _ hf]
      simp only [specDelta, List.map_cons, List.sum_cons]
      ring

theorem deltas_ok {corr : Str → Py K} {c : Str → K} (hc : Agrees c corr) {states : List (List Formula)}
    {ds : List K} (h : states.mapM (fun fs => stateDelta corr fs 0) = .ok ds) :
    ds = states.map (specDelta c) := by
  obtain ⟨h1, h2⟩ := mapM_ok_inv h
  apply List.ext_getElem (by simp [h1])
  intro i hi _
  have := stateDelta_ok hc (h2 i (by omega) hi)
  rw [this]
  simp

theorem at?_ok {r : Rel K} {i : Nat} {v : Rel1 K} (h : r.at? i = .ok v) :
    r.gaf[i]? = some v.gaf ∧ r.gar[i]? = some v.gar ∧ r.dg[i]? = some v.dg := by
  unfold Rel.at? at h
  split at h
  · rename_i h1 h2 h3
    cases h
    exact ⟨h1, h2, h3⟩
  · cases h

theorem at?_setAt_ne {r : Rel K} {i j : Nat} {v : Rel1 K} (h : i ≠ j) : (r.setAt i v).at? j = r.at? j := by
  simp only [Rel.at?, Rel.setAt, List.getElem?_set_ne h]

theorem at?_setAt_self {r : Rel K} {i : Nat} {v w : Rel1 K} (h : r.at? i = .ok w) :
    (r.setAt i v).at? i = .ok v := by
  obtain ⟨h1, h2, h3⟩ := at?_ok h
  obtain ⟨l1, -⟩ := List.getElem?_eq_some_iff.mp h1
  obtain ⟨l2, -⟩ := List.getElem?_eq_some_iff.mp h2
  obtain ⟨l3, -⟩ := List.getElem?_eq_some_iff.mp h3
  simp only [Rel.at?, Rel.setAt, List.getElem?_set_self l1, List.getElem?_set_self l2, List.getElem?_set_self l3]

/-- What the correction loop does to each position. -/
theorem correctFrom_ok {corr : Str → Py K} {c : Str → K} (hc : Agrees c corr)
    {rxns : List (List (List Formula))} {i : Nat} {r r' : Rel K} (h : correctFrom corr rxns i r = .ok r') :
    r'.gaf.length = r.gaf.length ∧ r'.gar.length = r.gar.length ∧ r'.dg.length = r.dg.length ∧
    (∀ j, (j < i ∨ i + rxns.length ≤ j) → r'.at? j = r.at? j) ∧
    (∀ j (hj : j < rxns.length), ∃ v, r.at? (i + j) = .ok v ∧
      r'.at? (i + j) = .ok (changeRel v (rxns[j].map (specDelta c)))) := by
  induction rxns generalizing i r with
  | nil => simp only [correctFrom] at h; cases h; simp
  | cons states rest ih =>
    simp only [correctFrom, correctOne] at h
    cases hv : r.at? i with
    | error e => rw [hv] at h; cases h
    | ok v =>
      rw [hv] at h
      cases hd : states.mapM (fun fs => stateDelta corr fs 0) with
      | error e => rw [hd] at h; cases h
      | ok ds =>
        rw [hd] at h
        have h : correctFrom corr rest (i + 1) (r.setAt i (changeRel v ds)) = .ok r' := h
        obtain ⟨i1, i2, i3, i4, i5⟩ := ih h
        have hds := deltas_ok hc hd
        refine ⟨by simpa [Rel.setAt] using i1, by simpa [Rel.setAt] using i2, by simpa [Rel.setAt] using i3, ?_, ?_⟩
        · intro j hj
          rw [List.length_cons] at hj
          rw [i4 j (by omega), at?_setAt_ne (by omega)]
        · intro j hj
          cases j with
          | zero =>
            refine ⟨v, hv, ?_⟩
            rw [Nat.add_zero, i4 i (by omega), at?_setAt_self hv, hds]
            rfl
          | succ j =>
            obtain ⟨w, hw, hw'⟩ := i5 j (by simpa using hj)
            rw [at?_setAt_ne (by omega)] at hw
            refine ⟨w, by rw [← hw]; congr 1; omega, ?_⟩
            have : i + (j + 1) = i + 1 + j := by omega
            rw [this, hw']
            rfl

/-- The correction of every reaction of a model. `gaf`, `gar`, `dg` before, primed after:
lengths are kept; the reaction energy changes by the correction of the last state minus that of
the first; `Gaf - Gar = dG` is preserved; without transition state the new barriers are
non-negative and one of them is zero; with one, each barrier changes by the correction of the
transition state minus that of the state it is measured from. -/
theorem C14_correction (corr : Str → Py K) (c : Str → K) (hc : Agrees c corr) (rxns : List Str)
    (n : Network) (hn : parseNetwork rxns = .ok n) (r r' : Rel K) (h : correctAll corr n r = .ok r') :
    r'.gaf.length = r.gaf.length ∧ r'.gar.length = r.gar.length ∧ r'.dg.length = r.dg.length ∧
    ∀ i (hi : i < rxns.length), ∃ states is fs gaf gar dg gaf' gar' dg',
      eqnFormulas rxns[i] = .ok states ∧ states.head? = some is ∧ states.getLast? = some fs ∧
      r.gaf[i]? = some gaf ∧ r.gar[i]? = some gar ∧ r.dg[i]? = some dg ∧
      r'.gaf[i]? = some gaf' ∧ r'.gar[i]? = some gar' ∧ r'.dg[i]? = some dg' ∧
      dg' = dg + (specDelta c fs - specDelta c is) ∧
      (gaf - gar = dg → gaf' - gar' = dg') ∧
      (states.length = 2 → 0 ≤ gaf' ∧ 0 ≤ gar' ∧ (gaf' = 0 ∨ gar' = 0)) ∧
      (∀ a ts b, states = [a, ts, b] → gaf' = gaf + (specDelta c ts - specDelta c is) ∧
        gar' = gar + (specDelta c ts - specDelta c fs)) := by
  obtain ⟨i1, i2, i3, -, i5⟩ := correctFrom_ok hc h
  refine ⟨i1, i2, i3, ?_⟩
  intro i hi
  obtain ⟨m1, m2⟩ := mapM_ok_inv (parseNetwork_ok hn).1
  obtain ⟨v, hv, hv'⟩ := i5 i (by omega)
  rw [Nat.zero_add] at hv hv'
  have hp := m2 i hi (by omega)
  have he := (parseRxn_ok.mp hp).2
  have hlen := eqnFormulas_length he
  obtain ⟨is, fs, e1, e2, -⟩ := parseRxn_ends hp
  obtain ⟨a1, a2, a3⟩ := at?_ok hv
  obtain ⟨b1, b2, b3⟩ := at?_ok hv'
  refine ⟨_, is, fs, _, _, _, _, _, _, he, e1, e2, a1, a2, a3, b1, b2, b3, ?_⟩
  generalize n.rxns[i]'(by omega) = states at e1 e2 hlen
  match states, e1, e2, hlen with
  | [a], e1, e2, _ =>
    simp only [List.head?_cons, List.getLast?_singleton, Option.some.injEq] at e1 e2
    subst e1 e2
    simp [changeRel]
  | [a, b], e1, e2, _ =>
    simp only [List.head?_cons, List.getLast?_cons_cons, List.getLast?_singleton, Option.some.injEq] at e1 e2
    subst e1 e2
    simp only [changeRel, List.map_cons, List.map_nil]
    refine ⟨by ring, fun _ => by ring, fun _ => ⟨sub_nonneg.mpr (le_max_left _ _),
      sub_nonneg.mpr (le_max_right _ _), ?_⟩, by simp⟩
    rcases le_total (0 + specDelta c a) (0 + v.dg + specDelta c b) with h | h
    · right; rw [max_eq_right h, sub_self]
    · left; rw [max_eq_left h, sub_self]
  | [a, t, b], e1, e2, _ =>
    simp only [List.head?_cons, List.getLast?_cons_cons, List.getLast?_singleton, Option.some.injEq] at e1 e2
    subst e1 e2
    simp only [changeRel, List.map_cons, List.map_nil]
    refine ⟨trivial, fun hh => by rw [← sub_eq_zero] at hh ⊢; rw [← hh]; ring, by simp, ?_⟩
    intro x y z e
    cases e
    exact ⟨rfl, rfl⟩
  | [], e1, _, _ => simp at e1
  | a :: b :: c :: d :: l, _, _, hlen => simp at hlen

/-- The correction needs energies for every reaction: shorter lists raise `IndexError`, if the
correction of every formula is defined. -/
theorem C14_short_lists (corr : Str → Py K) (hc : ∀ s, ∃ v, corr s = .ok v) (n : Network) (r : Rel K) :
    (∃ r', correctAll corr n r = .ok r') ∨ correctAll corr n r = .error .IndexError := by
  have hd : ∀ (fs : List Formula) (acc : K), ∃ d, stateDelta corr fs acc = .ok d := by
    intro fs
    induction fs with
    | nil => intro acc; exact ⟨acc, rfl⟩
    | cons f fs ih =>
      intro acc
      obtain ⟨v, hv⟩ := hc f.text
      obtain ⟨d, hd⟩ := ih (acc + v)
      exact ⟨d, by simp only [stateDelta, hv]; exact hd⟩
  have : ∀ (rxns : List (List (List Formula))) (i : Nat) (r : Rel K),
      (∃ r', correctFrom corr rxns i r = .ok r') ∨ correctFrom corr rxns i r = .error .IndexError := by
    intro rxns
    induction rxns with
    | nil => intro i r; left; exact ⟨r, rfl⟩
    | cons s rest ih =>
      intro i r
      simp only [correctFrom, correctOne]
      cases hv : r.at? i with
      | error e =>
        right
        unfold Rel.at? at hv
        split at hv <;> cases hv
        rfl
      | ok v =>
        obtain ⟨ds, hds⟩ := mapM_ok_exists (l := s) (f := fun fs => stateDelta corr fs 0) (fun fs _ => hd fs 0)
        rw [hds]
        exact ih (i + 1) _
  exact this n.rxns 0 r

/-- Two corrections of the example network: adsorption, dissociative adsorption and a step with a
transition state; every gas is corrected by -1/2. -/
def exCorr (s : Str) : Py ℚ := .ok (if s.getLast? = some 'g' then -1 / 2 else 0)

def exCorrNet : Network :=
  match parseNetwork exEnergyRxns with
  | .ok n => n
  | .error _ => ⟨[], [], [], [], [], []⟩

example : parseNetwork exEnergyRxns = .ok exCorrNet ∧
    correctAll exCorr exCorrNet ⟨[0, 0, 7 / 2], [2, 6, 7 / 2], [-2, -6, 0]⟩ =
      .ok ⟨[0, 0, 7 / 2], [3 / 2, 11 / 2, 4], [-3 / 2, -11 / 2, -1 / 2]⟩ ∧
    correctAll exCorr exCorrNet ⟨[0], [2], [-2]⟩ = .error .IndexError := by decide +kernel

/-! ## C66 a correction of zero -/

/-- A correction that is zero everywhere still overwrites the barriers of a reaction given with
two states: the forward barrier 1 of `CO_g + *_s -> CO_s` becomes 0. -/
theorem C66_zero_correction_refuted :
    ∃ (rxns : List Str) (n : Network) (r r' : Rel ℚ), parseNetwork rxns = .ok n ∧
      r.gaf = [1] ∧ r.gar = [3] ∧ r.dg = [-2] ∧
      correctAll (fun _ => .ok 0) n r = .ok r' ∧ r'.gaf = [0] ∧ r'.gar = [2] :=
  ⟨[str! "CO_g + *_s -> CO_s"],
    ⟨[str! "CO_s"], [str! "CO_g"], [], [str! "*_s"], [],
      [[[⟨str! "CO_g", 1, str! "CO", 1, str! "g", str! "CO_g"⟩, ⟨str! "*_s", 1, str! "*", 1, str! "s", str! "*_s"⟩],
        [⟨str! "CO_s", 1, str! "CO", 1, str! "s", str! "CO_s"⟩]]]⟩,
    ⟨[1], [3], [-2]⟩, ⟨[0], [2], [-2]⟩, by decide +kernel⟩

/-- Reactions with a transition state, and reactions without one whose barriers are those of a
barrierless step, are unchanged by a correction of zero. Missing: reactions written with two
states but given an explicit barrier, see `C66_zero_correction_refuted`. -/
theorem C66_zero_correction_partial (rxns : List Str) (n : Network) (hn : parseNetwork rxns = .ok n)
    (r r' : Rel K) (h : correctAll (fun _ => .ok 0) n r = .ok r')
    (hr : ∀ i (hi : i < rxns.length) states, eqnFormulas rxns[i] = .ok states → states.length = 2 →
      ∃ d, r.dg[i]? = some d ∧ r.gaf[i]? = some (max 0 d) ∧ r.gar[i]? = some (max 0 d - d)) (i : Nat)
    (hi : i < rxns.length) :
    r'.gaf[i]? = r.gaf[i]? ∧ r'.gar[i]? = r.gar[i]? ∧ r'.dg[i]? = r.dg[i]? := by
  have hc : Agrees (fun _ => (0 : K)) (fun _ : Str => (.ok 0 : Py K)) := by
    intro s v hv; cases hv; rfl
  obtain ⟨-, -, -, -, i5⟩ := correctFrom_ok hc h
  obtain ⟨m1, m2⟩ := mapM_ok_inv (parseNetwork_ok hn).1
  obtain ⟨v, hv, hv'⟩ := i5 i (by omega)
  rw [Nat.zero_add] at hv hv'
  have hp := m2 i hi (by omega)
  have he := (parseRxn_ok.mp hp).2
  have hlen := eqnFormulas_length he
  obtain ⟨a1, a2, a3⟩ := at?_ok hv
  obtain ⟨b1, b2, b3⟩ := at?_ok hv'
  have hz : ∀ fs, specDelta (fun _ => (0 : K)) fs = 0 := by intro fs; simp [specDelta]
  have : changeRel v ((n.rxns[i]'(by omega)).map (specDelta fun _ => 0)) = v := by
    have hr' := hr i hi _ he
    generalize n.rxns[i]'(by omega) = states at hr' hlen
    match states, hr', hlen with
    | [], _, _ => rfl
    | [a], _, _ => rfl
    | [a, b], hr', _ =>
      obtain ⟨d, d1, d2, d3⟩ := hr' rfl
      rw [a1] at d2; rw [a2] at d3; rw [a3] at d1
      obtain ⟨x, y, z⟩ := v
      simp only [Option.some.injEq] at d1 d2 d3
      subst d1 d2 d3
      simp [changeRel, hz]
    | [a, t, b], _, _ => simp [changeRel, hz]
    | a :: b :: c :: d :: l, _, hlen => simp at hlen
  rw [this] at b1 b2 b3
  rw [a1, a2, a3, b1, b2, b3]
  exact ⟨rfl, rfl, rfl⟩

example : correctAll (fun _ => .ok 0) exCorrNet ⟨[0, 1, 7 / 2], [2, 0, 4], [-2, 1, (-1 / 2 : ℚ)]⟩ =
    .ok ⟨[0, 1, 7 / 2], [2, 0, 4], [-2, 1, -1 / 2]⟩ := by decide +kernel

/-! ### The theorems at these cases -/

/-- An energy for every name, given by the table. -/
def exG (s : Str) : ℚ := (get? exEnergies s).getD 0

theorem exG_extends : Extends exG exEnergies := fun _ _ h => by simp [exG, h]

example := C12_state_energy exEnergies exG exG_extends [⟨str! "CO_g", 1, str! "CO", 1, str! "g", str! "CO_g"⟩]

example := C12_single_reaction exEnergies exG exG_extends (str! "CO_s + O_s <-> CO-O_2s -> CO2_g + 2*_s") ⟨7 / 2, 7 / 2, 0⟩ (by decide +kernel)

example := C12_lists exEnergies exEnergyRxns ⟨[0, 0, 7 / 2], [2, 6, 7 / 2], [-2, -6, 0]⟩ (by decide +kernel)

example := C12_complete_tables exEnergies exEnergyRxns exCorrNet (by decide)

example := C12_reversal exEnergies (str! "CO_g + *_s -> CO_s") (str! "CO_s -> CO_g + *_s") ⟨0, 2, -2⟩ (by decide) (by decide +kernel)

example := C13_normalised 3 none (some ⟨some [0, 0, 1], some [2, -1, (1 / 2 : ℚ)]⟩) {}
  { relative := some ⟨[2, 0, 1], [0, 1, 1 / 2], [2, -1, 1 / 2]⟩ } (by decide +kernel)

example := C13_idempotent 3 none (some ⟨some [0, 0, 1], some [2, -1, (1 / 2 : ℚ)]⟩) {}
  { relative := some ⟨[2, 0, 1], [0, 1, 1 / 2], [2, -1, 1 / 2]⟩ } {} ⟨[2, 0, 1], [0, 1, 1 / 2], [2, -1, 1 / 2]⟩ (by decide +kernel) rfl

example := C14_correction exCorr (fun s => if s.getLast? = some 'g' then -1 / 2 else 0) (fun _ _ h => Except.ok.inj h) exEnergyRxns exCorrNet (by decide)
  ⟨[0, 0, 7 / 2], [2, 6, 7 / 2], [-2, -6, 0]⟩ ⟨[0, 0, 7 / 2], [3 / 2, 11 / 2, 4], [-3 / 2, -11 / 2, -1 / 2]⟩ (by decide +kernel)

example := C14_short_lists exCorr (fun _ => ⟨_, rfl⟩) exCorrNet ⟨[0], [2], [-2]⟩

end Verif
