import Verif.Lemmas.Symbolic
import Verif.Props.SteadyLoop
import Verif.Props.Jacobian
import Mathlib.Analysis.SpecialFunctions.ExpDeriv
import Mathlib.Analysis.Calculus.Deriv.Inv
import Mathlib.Analysis.Calculus.Deriv.Pow
/-
Properties C29 and C71: the symbolic rates, coverage equations and Jacobian.
-/
namespace Verif
open Dict
set_option linter.unusedSectionVars false
variable {K : Type} [Field K] [DecidableEq K]

/-! ## C71 symbolic rates -/

/-- The two calls needed before symbolic values can be computed. -/
def prepare (s : SymSolver K) : Py (SymSolver K) := do
  let s ← getDataSymbols s
  getDataOf s

/-- A model whose symbolic values can be computed: the network and its data can be read, there are
no liquids and no stars in adsorbate names, energies are given for all reactions. -/
structure SymGiven (s : SymSolver K) (total P C : Str → K) (gaf dg : List K) : Prop where
  ready : Ready s.o total P C
  clean : ∀ states ∈ s.o.net.rxns, RateClean states
  liq : s.o.net.liq = []
  star : ∀ a ∈ s.o.net.ads, '*' ∉ a
  lenG : gaf.length = s.o.rxns.length
  lenD : dg.length = s.o.rxns.length
  gaf : s.gaf = some gaf
  dg : s.dg = some dg
  kT : s.kB * s.T ≠ 0
  hne : s.h ≠ 0

theorem prepare_ok {s0 : SymSolver K} {total P C : Str → K} {gaf dg : List K} (h : SymGiven s0 total P C gaf dg) :
    ∃ s, prepare s0 = .ok s ∧ s.o = s0.o ∧ s.kB = s0.kB ∧ s.h = s0.h ∧ s.T = s0.T ∧
      SymOk s total P C (fun i => (gaf[i]?).getD 0) (fun i => (dg[i]?).getD 0) := by
  refine ⟨{ s0 with free := some (s0.o.net.sites.map (freeExpr s0.o.net total)),
                    data := some (s0.o.net.gas.map (fun g => (g, P g)), s0.o.net.liq.map (fun g => (g, C g))) }, ?_, rfl, rfl, rfl, rfl, ?_⟩
  · unfold prepare
    rw [getDataSymbols_ok h.ready]
    simp only [bind, Except.bind]
    unfold getDataOf
    dsimp only
    rw [getData_ok h.ready]
    rfl
  · refine ⟨h.ready, rfl, ⟨_, rfl⟩, ⟨gaf, h.gaf, ?_⟩, ⟨dg, h.dg, ?_⟩, h.liq, h.star, h.clean, h.kT, h.hne⟩
    · intro i hi
      rw [List.getElem?_eq_getElem (by rw [h.lenG]; exact hi)]; rfl
    · intro i hi
      rw [List.getElem?_eq_getElem (by rw [h.lenD]; exact hi)]; rfl

/-- `f` of the transition-state formula. -/
def tst (ex : K → K) (kB h T g : K) : K := kB * T / h * ex (-g / (kB * T))

/-- The rate constants belong to the energies: transition-state formula for the forward barrier, and
for the forward barrier minus the reaction energy; a repeated text has the energies of its first
occurrence. -/
structure KGiven (ex : K → K) (s : SymSolver K) (gaf dg kf kr : List K) : Prop where
  lenF : kf.length = s.o.rxns.length
  lenR : kr.length = s.o.rxns.length
  fwd : ∀ i (hi : i < s.o.rxns.length), ∃ g, gaf[s.o.rxns.idxOf s.o.rxns[i]]? = some g ∧
    kf[i]? = some (tst ex s.kB s.h s.T g)
  rev : ∀ i (hi : i < s.o.rxns.length), ∃ g d, gaf[s.o.rxns.idxOf s.o.rxns[i]]? = some g ∧
    dg[s.o.rxns.idxOf s.o.rxns[i]]? = some d ∧ kr[i]? = some (tst ex s.kB s.h s.T (g - d))

theorem kGiven_ok {ex : K → K} {s : SymSolver K} {gaf dg kf kr : List K} (h : KGiven ex s gaf dg kf kr) :
    KOk s.o.rxns kf (fun r => tst ex s.kB s.h s.T ((gaf[s.o.rxns.idxOf r]?).getD 0)) ∧
    KOk s.o.rxns kr (fun r => tst ex s.kB s.h s.T ((gaf[s.o.rxns.idxOf r]?).getD 0 - (dg[s.o.rxns.idxOf r]?).getD 0)) := by
  refine ⟨⟨fun i hi => ?_⟩, ⟨fun i hi => ?_⟩⟩
  · obtain ⟨g, h1, h2⟩ := h.fwd i hi
    rw [h2, h1]; rfl
  · obtain ⟨g, d, h1, h2, h3⟩ := h.rev i hi
    rw [h3, h1, h2]; rfl

/-- There are always such rate constants. -/
theorem kGiven_exists (ex : K → K) {s : SymSolver K} {total P C : Str → K} {gaf dg : List K} (h : SymGiven s total P C gaf dg) :
    ∃ kf kr, KGiven ex s gaf dg kf kr := by
  refine ⟨s.o.rxns.map fun r => tst ex s.kB s.h s.T ((gaf[s.o.rxns.idxOf r]?).getD 0),
    s.o.rxns.map fun r => tst ex s.kB s.h s.T ((gaf[s.o.rxns.idxOf r]?).getD 0 - (dg[s.o.rxns.idxOf r]?).getD 0),
    by simp, by simp, fun i hi => ?_, fun i hi => ?_⟩
  · obtain ⟨hi', -⟩ := idxOf_getElem?_same hi
    have e1 : gaf[s.o.rxns.idxOf s.o.rxns[i]]? = some _ := List.getElem?_eq_getElem (by rw [h.lenG]; exact hi')
    exact ⟨_, e1, by rw [List.getElem?_map, List.getElem?_eq_getElem hi, Option.map_some, e1]; rfl⟩
  · obtain ⟨hi', -⟩ := idxOf_getElem?_same hi
    have e1 : gaf[s.o.rxns.idxOf s.o.rxns[i]]? = some _ := List.getElem?_eq_getElem (by rw [h.lenG]; exact hi')
    have e2 : dg[s.o.rxns.idxOf s.o.rxns[i]]? = some _ := List.getElem?_eq_getElem (by rw [h.lenD]; exact hi')
    exact ⟨_, _, e1, e2, by rw [List.getElem?_map, List.getElem?_eq_getElem hi, Option.map_some, e1, e2]; rfl⟩

/-- The rate expressions and their values for all coverages. -/
theorem rates_ok (ex : K → K) {s : SymSolver K} {total P C : Str → K} {A D : Nat → K} (h : SymOk s total P C A D)
    {kf kr : List K}
    (hkf : KOk s.o.rxns kf (fun r => tst ex s.kB s.h s.T (A (s.o.rxns.idxOf r))))
    (hkr : KOk s.o.rxns kr (fun r => tst ex s.kB s.h s.T (A (s.o.rxns.idxOf r) - D (s.o.rxns.idxOf r)))) :
    ∃ es, s.o.rxns.mapM (rateSym s) = .ok es ∧ es.length = s.o.rxns.length ∧ ∀ v d, SubsOk s P v A D d →
      ∃ rfs rrs, getRates s.o (kf, kr) (s.o.net.ads.map v) = .ok (rfs, rrs) ∧ rfs.length = s.o.rxns.length ∧
        rrs.length = s.o.rxns.length ∧
        ∀ i (h1 : i < es.length) (h2 : i < rfs.length) (h3 : i < rrs.length),
          evalSym ex d es[i].1 = .ok rfs[i] ∧ evalSym ex d es[i].2 = .ok rrs[i] := by
  have single : ∀ i (hi : i < s.o.rxns.length), ∃ e, rateSym s s.o.rxns[i] = .ok e := by
    intro i hi
    obtain ⟨st, is, fs, b1, -, -, b4, b5, -, -⟩ := states_ok h.ready.parse hi
    obtain ⟨e, he, -⟩ := rateSym_ok ex h hi b1 b4 b5
    exact ⟨e, he⟩
  obtain ⟨es, hes⟩ := mapM_ok_exists (f := rateSym s) (l := s.o.rxns) (fun r hr => by
    obtain ⟨i, hi, rfl⟩ := List.mem_iff_getElem.mp hr
    exact single i hi)
  obtain ⟨l1, l2⟩ := mapM_ok_inv hes
  refine ⟨es, hes, l1, ?_⟩
  intro v d hd
  obtain ⟨rfs, rrs, r1, r2, r3, r4⟩ := getRates_ok h.ready h.clean v kf kr _ _ hkf hkr
  refine ⟨rfs, rrs, r1, r2, r3, ?_⟩
  intro i h1 h2 h3
  have hi : i < s.o.rxns.length := by omega
  obtain ⟨st, is, fs, b1, -, -, b4, b5, -, -⟩ := states_ok h.ready.parse hi
  obtain ⟨e, he, hv⟩ := rateSym_ok ex h hi b1 b4 b5
  have := l2 i hi h1
  rw [he] at this
  rw [← Except.ok.inj this]
  obtain ⟨v1, v2⟩ := hv v d hd
  obtain ⟨w1, w2⟩ := r4 i hi st is fs b1 b4 b5
  rw [List.getElem?_eq_getElem h2] at w1
  rw [List.getElem?_eq_getElem h3] at w2
  rw [v1, v2, Option.some.inj w1, Option.some.inj w2]
  exact ⟨rfl, rfl⟩

theorem mapM_ext {α β : Type} {f : α → Py β} {l : List α} {k : List β} (hl : k.length = l.length)
    (h : ∀ i (h1 : i < l.length) (h2 : i < k.length), f l[i] = .ok k[i]) : l.mapM f = .ok k := by
  induction l generalizing k with
  | nil => cases k with
    | nil => rfl
    | cons => simp at hl
  | cons a l ih =>
    cases k with
    | nil => simp at hl
    | cons b k =>
      refine mapM_cons_ok (h 0 (by simp) (by simp)) (ih (by simpa using hl) fun i h1 h2 => ?_)
      exact h (i + 1) (by simpa using h1) (by simpa using h2)

theorem symRowTimes_ok (ex : K → K) (d : Dict Symb K) (n : Nat) (es : List (SymExpr K)) (xs : List K)
    (hl : xs.length = es.length) (h : ∀ i (h1 : i < es.length) (h2 : i < xs.length), evalSym ex d es[i] = .ok xs[i])
    (M : List (List K)) :
    (symRowTimes n es M).mapM (evalSym ex d) = .ok (rowTimes n xs M) := by
  induction es generalizing xs M with
  | nil =>
    cases xs with
    | cons => simp at hl
    | nil =>
      simp only [symRowTimes, rowTimes]
      exact mapM_ext (by simp) fun i h1 h2 => by simp [evalSym]
  | cons e es ih =>
    cases xs with
    | nil => simp at hl
    | cons x xs =>
      cases M with
      | nil =>
        simp only [symRowTimes, rowTimes]
        exact mapM_ext (by simp) fun i h1 h2 => by simp [evalSym]
      | cons row M =>
        have := ih xs (by simpa using hl) (fun i h1 h2 => h (i + 1) (by simpa using h1) (by simpa using h2)) M
        have h0 := h 0 (by simp) (by simp)
        simp only [List.getElem_cons_zero] at h0
        simp only [symRowTimes, rowTimes]
        obtain ⟨m1, m2⟩ := mapM_ok_inv this
        refine mapM_ext (by simp [m1]) fun i h1 h2 => ?_
        simp only [List.length_zipWith] at h1 h2
        have := m2 i (by omega) (by omega)
        simp only [List.getElem_zipWith, evalSym, h0, this, bind, Except.bind, pure, Except.pure]

/-- **C71** After `get_data_symbols` and `get_data`, for every coverage tuple the symbolic rates,
net rates and turnover frequencies are the numerical ones, if the rate constants are the
transition-state ones with `Gar = Gaf - dG`. Missing: networks with liquids, refuted below. -/
theorem C71_rates_partial (ex : K → K) (s0 : SymSolver K) (total P C : Str → K) (gaf dg kf kr : List K)
    (h : SymGiven s0 total P C gaf dg) (hk : KGiven ex s0 gaf dg kf kr) :
    ∃ s, prepare s0 = .ok s ∧ ∀ cvgs : List K, cvgs.length = s0.o.net.ads.length →
      ∃ rfs rrs, getRates s0.o (kf, kr) cvgs = .ok (rfs, rrs) ∧ ratesBySym ex s cvgs = .ok (rfs, rrs) ∧
        netRatesBySym ex s cvgs = getNetRates s0.o (kf, kr) cvgs ∧
        tofBySym ex s cvgs = getTof s0.o (kf, kr) cvgs := by
  obtain ⟨s, hp, e1, e2, e3, e4, hs⟩ := prepare_ok h
  refine ⟨s, hp, ?_⟩
  intro cvgs hlen
  obtain ⟨v, rfl⟩ := tuple_as_function (ads_nodup h.ready.parse) hlen
  obtain ⟨k1, k2⟩ := kGiven_ok hk
  rw [← e1] at *
  rw [← e2, ← e3, ← e4] at k1 k2
  obtain ⟨es, he, hl, hv⟩ := rates_ok ex hs k1 k2
  obtain ⟨d, hd1, hd2⟩ := subs_ok hs v
  obtain ⟨rfs, rrs, r1, r2, r3, r4⟩ := hv v d hd2
  have m1 : es.mapM (fun e => evalSym ex d e.1) = .ok rfs := mapM_ext (by omega) fun i h1 h2 => (r4 i h1 h2 (by omega)).1
  have m2 : es.mapM (fun e => evalSym ex d e.2) = .ok rrs := mapM_ext (by omega) fun i h1 h2 => (r4 i h1 (by omega) h2).2
  have m3 : es.mapM (fun e => evalSym ex d (.sub e.1 e.2)) = .ok (List.zipWith (· - ·) rfs rrs) := by
    refine mapM_ext (by simp; omega) fun i h1 h2 => ?_
    obtain ⟨a1, a2⟩ := r4 i h1 (by omega) (by omega)
    simp only [evalSym, a1, a2, bind, Except.bind, pure, Except.pure, List.getElem_zipWith]
  refine ⟨rfs, rrs, r1, ?_, ?_, ?_⟩
  · unfold ratesBySym
    simp only [he, hd1, m1, m2, bind, Except.bind]
    rfl
  · unfold netRatesBySym getNetRates
    simp only [he, hd1, m3, r1, bind, Except.bind]
    rfl
  · unfold tofBySym getTof getNetRates
    rw [stoich_rows hs.ready.parse, r1]
    simp only [he, hd1, bind, Except.bind, pure, Except.pure]
    apply symRowTimes_ok
    · simp; omega
    · intro i h1 h2
      obtain ⟨_, w⟩ := mapM_ok_inv m3
      have := w i (by simpa using h1) h2
      simpa using this

/-- **C71** The symbolic rate constants are those of the transition-state formula, reaction by
reaction, independently of the coverages and of the setting `rate_algo`. -/
theorem C71_rate_constants_partial (ex : K → K) (s0 : SymSolver K) (total P C : Str → K) (gaf dg : List K)
    (h : SymGiven s0 total P C gaf dg) :
    ∃ s, prepare s0 = .ok s ∧ rateConstantsBySym ex s = .ok (gaf.map (tst ex s0.kB s0.h s0.T),
      (List.zipWith (· - ·) gaf dg).map (tst ex s0.kB s0.h s0.T)) := by
  obtain ⟨s, hp, e1, e2, e3, e4, hs⟩ := prepare_ok h
  refine ⟨s, hp, ?_⟩
  have hlg := h.lenG
  have hld := h.lenD
  rw [← e1] at hlg hld
  rw [← e2, ← e3, ← e4]
  obtain ⟨d, hd1, hd2⟩ := subs_val hs []
  have k := fun i hi => kfSym_ok ex hs hd2 (i := i) hi
  have m1 : (List.range s.o.rxns.length).mapM (fun i => evalSym ex d (kfSym i)) = .ok (gaf.map (tst ex s.kB s.h s.T)) := by
    refine mapM_ext (by simpa using hlg) fun i h1 h2 => ?_
    have hi : i < s.o.rxns.length := by simpa using h1
    rw [List.getElem_range, (k i hi).1, List.getElem?_eq_getElem (by omega), List.getElem_map]
    rfl
  have m2 : (List.range s.o.rxns.length).mapM (fun i => evalSym ex d (krSym i))
      = .ok ((List.zipWith (· - ·) gaf dg).map (tst ex s.kB s.h s.T)) := by
    refine mapM_ext (by simp; omega) fun i h1 h2 => ?_
    have hi : i < s.o.rxns.length := by simpa using h1
    rw [List.getElem_range, (k i hi).2, List.getElem?_eq_getElem (by omega), List.getElem?_eq_getElem (by omega), List.getElem_map, List.getElem_zipWith]
    rfl
  unfold rateConstantsBySym
  simp only [hs.free, hd1, m1, m2, bind, Except.bind]
  rfl

/-- **C71** In particular the rates agree with those computed from the rate constants of the solver
with `rate_algo = "TST"`, for relative energies with `Gar = Gaf - dG`. -/
theorem C71_solver_partial (s0 : SymSolver ℝ) (total P C : Str → ℝ) (gaf dg kf kr : List ℝ) (ro : RateOwner)
    (h : SymGiven s0 total P C gaf dg) (hB : s0.kB = kBeV) (hh : s0.h = heV) (hT : s0.T = ro.T) (hro : ro.rxns = s0.o.rxns)
    (hk : rateConstants ro .TST ⟨some gaf, some (List.zipWith (· - ·) gaf dg), some dg⟩ = .ok (kf, kr)) :
    ∃ s, prepare s0 = .ok s ∧ ∀ cvgs : List ℝ, cvgs.length = s0.o.net.ads.length →
      ∃ rfs rrs, getRates s0.o (kf, kr) cvgs = .ok (rfs, rrs) ∧ ratesBySym Real.exp s cvgs = .ok (rfs, rrs) ∧
        netRatesBySym Real.exp s cvgs = getNetRates s0.o (kf, kr) cvgs ∧
        tofBySym Real.exp s cvgs = getTof s0.o (kf, kr) cvgs := by
  apply C71_rates_partial Real.exp s0 total P C gaf dg kf kr h
  have hT0 : ro.T ≠ 0 := by
    intro e
    apply h.kT
    rw [hT, e, mul_zero]
  unfold rateConstants at hk
  rw [guard_ok] at hk
  obtain ⟨-, hk⟩ := hk
  dsimp only at hk
  rw [bind_ok] at hk
  obtain ⟨l, hl, hk⟩ := hk
  rw [pure_ok] at hk
  obtain ⟨rfl, rfl⟩ := Prod.mk.inj hk
  obtain ⟨m1, m2⟩ := mapM_ok_inv hl
  rw [hro] at m1 m2 hl
  have single : ∀ i (hi : i < s0.o.rxns.length), ∃ g d, gaf[s0.o.rxns.idxOf s0.o.rxns[i]]? = some g ∧
      dg[s0.o.rxns.idxOf s0.o.rxns[i]]? = some d ∧
      l[i]? = some (tst Real.exp s0.kB s0.h s0.T g, tst Real.exp s0.kB s0.h s0.T (g - d)) := by
    intro i hi
    obtain ⟨hi', -⟩ := idxOf_getElem?_same hi
    have e1 : gaf[s0.o.rxns.idxOf s0.o.rxns[i]]? = some _ := List.getElem?_eq_getElem (by rw [h.lenG]; exact hi')
    have e2 : dg[s0.o.rxns.idxOf s0.o.rxns[i]]? = some _ := List.getElem?_eq_getElem (by rw [h.lenD]; exact hi')
    refine ⟨_, _, e1, e2, ?_⟩
    have e3 := m2 i hi (by omega)
    rw [List.getElem?_eq_getElem (by omega : i < l.length)]
    congr 1
    symm
    apply Except.ok.inj (ε := PyErr)
    rw [← e3]
    unfold ratesTST relOf
    rw [hro, if_neg (by simp)]
    simp only [entryAt, List.getElem?_zipWith, e1, e2, bind, Except.bind, pure, Except.pure, kTST, hT0, if_false]
    simp only [tst, hB, hh, hT]
    rfl
  refine ⟨by simp [m1], by simp [m1], fun i hi => ?_, fun i hi => ?_⟩
  · obtain ⟨g, d, e1, e2, e3⟩ := single i hi
    exact ⟨g, e1, by rw [List.getElem?_map, e3]; rfl⟩
  · obtain ⟨g, d, e1, e2, e3⟩ := single i hi
    exact ⟨g, d, e1, e2, by rw [List.getElem?_map, e3]; rfl⟩

/-- No substitution is possible when there is a liquid. -/
theorem subs_liquid (s : SymSolver K) (h : s.o.net.liq ≠ []) (cvgs : List K) (d : Dict Symb K) :
    getSubsDict s cvgs ≠ .ok d := by
  intro hd
  have : ∀ x, dataSubs s ≠ .ok x := by
    intro x hx
    unfold dataSubs at hx
    split at hx
    · cases hx
    · rw [bind_ok] at hx
      obtain ⟨ps, -, hx⟩ := hx
      rw [if_pos h] at hx
      cases hx
  unfold getSubsDict at hd
  by_cases hf : s.free.isNone
  · simp [hf, bind, Except.bind] at hd
  · rw [if_neg hf] at hd
    rw [bind_ok] at hd
    obtain ⟨_, _, hd⟩ := hd
    rw [bind_ok] at hd
    obtain ⟨_, _, hd⟩ := hd
    rw [bind_ok] at hd
    obtain ⟨_, h4, hd⟩ := hd
    exact this _ h4

/-- **C71** The symbolic equilibrium constants are one for each reaction, in order; wherever the symbols have values with
`kB`, `h` and `T` not zero, each is the exponential of minus the reaction energy over `kB T`, whatever the barrier. -/
theorem C71_equilibrium (s : SymSolver ℝ) (hs : s.free.isSome) : ∃ es, equilibriumSyms s = .ok es ∧ es.length = s.o.rxns.length ∧
    ∀ (i : Nat) e, es[i]? = some e → ∀ (d : Dict Symb ℝ) (ga dg kB h T : ℝ), get? d (.ga i) = some ga → get? d (.dg i) = some dg →
      get? d .kB = some kB → get? d .h = some h → get? d .T = some T → kB ≠ 0 → h ≠ 0 → T ≠ 0 →
      evalSym Real.exp d e = .ok (Real.exp (-dg / (kB * T))) := by
  refine ⟨_, by unfold equilibriumSyms; rw [if_neg (by cases hf : s.free <;> simp_all)], by simp, ?_⟩
  intro i e he d ga dg kB h T e1 e2 e3 e4 e5 n1 n2 n3
  obtain ⟨hi, rfl⟩ : i < s.o.rxns.length ∧ SymExpr.div (kfSym i) (krSym i) = e := by
    rw [List.getElem?_map] at he
    cases hr : (List.range s.o.rxns.length)[i]? with
    | none => rw [hr] at he; exact nomatch he
    | some j =>
      rw [List.getElem?_eq_some_iff] at hr
      obtain ⟨h1, h2⟩ := hr
      simp only [List.getElem_range] at h2
      rw [List.getElem?_eq_getElem h1] at he
      simp only [List.getElem_range, Option.map_some, Option.some.injEq] at he
      exact ⟨by simpa using h1, he⟩
  have nT : kB * T ≠ 0 := mul_ne_zero n1 n3
  have hf : evalSym Real.exp d (kfSym i) = .ok (kB * T / h * Real.exp ((0 - ga) / (kB * T))) := by
    simp [kfSym, kSym, evalSym, e1, e3, e4, e5, n1, n2, n3, bind, Except.bind, pure, Except.pure]
  have hr : evalSym Real.exp d (krSym i) = .ok (kB * T / h * Real.exp ((0 - (ga - dg)) / (kB * T))) := by
    simp [krSym, kSym, evalSym, e1, e2, e3, e4, e5, n1, n2, n3, bind, Except.bind, pure, Except.pure]
  have hne : kB * T / h * Real.exp ((0 - (ga - dg)) / (kB * T)) ≠ 0 :=
    mul_ne_zero (div_ne_zero nT n2) (Real.exp_ne_zero _)
  show (do let x ← evalSym Real.exp d (kfSym i); let y ← evalSym Real.exp d (krSym i); if y = 0 then .error .TypeError else pure (x / y) : Py ℝ) = _
  rw [hf, hr]
  show (if _ then _ else _) = _
  rw [if_neg hne]
  show Except.ok _ = _
  rw [mul_div_mul_left _ _ (div_ne_zero nT n2), ← Real.exp_sub]
  congr 2
  field_simp
  ring

/-- **C71** (refuted for liquids) In every model with a liquid, no symbolic rate, rate constant, net
rate, turnover frequency, coverage derivative or Jacobian can be computed, whatever the coverages. -/
theorem C71_liquid_refuted (ex : K → K) (s : SymSolver K) (h : s.o.net.liq ≠ []) (cvgs : List K) :
    (∀ r, ratesBySym ex s cvgs ≠ .ok r) ∧ (∀ r, rateConstantsBySym ex s ≠ .ok r) ∧ (∀ r, netRatesBySym ex s cvgs ≠ .ok r) ∧
    (∀ r, tofBySym ex s cvgs ≠ .ok r) ∧ (∀ r, steadyBySym ex s cvgs ≠ .ok r) ∧ (∀ r, jacobianBySym ex s cvgs ≠ .ok r) := by
  refine ⟨?_, ?_, ?_, ?_, ?_, ?_⟩
  · intro r hr
    unfold ratesBySym at hr
    rw [bind_ok] at hr
    obtain ⟨_, _, hr⟩ := hr
    rw [bind_ok] at hr
    obtain ⟨d, hd, _⟩ := hr
    exact subs_liquid s h cvgs d hd
  · intro r hr
    unfold rateConstantsBySym at hr
    by_cases hf : s.free.isNone
    · simp [hf, bind, Except.bind] at hr
    · rw [if_neg hf] at hr
      rw [bind_ok] at hr
      obtain ⟨d, hd, _⟩ := hr
      exact subs_liquid s h [] d hd
  · intro r hr
    unfold netRatesBySym at hr
    rw [bind_ok] at hr
    obtain ⟨_, _, hr⟩ := hr
    rw [bind_ok] at hr
    obtain ⟨d, hd, _⟩ := hr
    exact subs_liquid s h cvgs d hd
  · intro r hr
    unfold tofBySym at hr
    rw [bind_ok] at hr
    obtain ⟨_, _, hr⟩ := hr
    rw [bind_ok] at hr
    obtain ⟨_, _, hr⟩ := hr
    rw [bind_ok] at hr
    obtain ⟨d, hd, _⟩ := hr
    exact subs_liquid s h cvgs d hd
  · intro r hr
    unfold steadyBySym at hr
    rw [bind_ok] at hr
    obtain ⟨_, _, hr⟩ := hr
    rw [bind_ok] at hr
    obtain ⟨d, hd, _⟩ := hr
    exact subs_liquid s h cvgs d hd
  · intro r hr
    unfold jacobianBySym at hr
    rw [bind_ok] at hr
    obtain ⟨d, hd, _⟩ := hr
    exact subs_liquid s h cvgs d hd

/-! Examples: CO oxidation with an exponential function replaced by a rational function. -/

def exSym : SymSolver ℚ := ⟨exMF, none, none, some [1, 2, 3], some [-1, 1, 2], 1 / 2, 2, 4⟩
def exExp (x : ℚ) : ℚ := 1 + x
def exSymK : List ℚ × List ℚ := ([1 / 2, 0, -1 / 2], [0, 1 / 2, 1 / 2])

theorem exSym_given : SymGiven exSym (fun _ => 1) exP (fun _ => 0) [1, 2, 3] [-1, 1, 2] :=
  ⟨exMF_ready, exMF_clean, by decide, by decide, by decide, by decide, rfl, rfl, by decide +kernel, by decide +kernel⟩

theorem exSym_k : KGiven exExp exSym [1, 2, 3] [-1, 1, 2] exSymK.1 exSymK.2 := by
  refine ⟨by decide, by decide, fun i hi => ?_, fun i hi => ?_⟩
  · have : i = 0 ∨ i = 1 ∨ i = 2 := by
      have : exSym.o.rxns.length = 3 := by decide
      omega
    rcases this with rfl | rfl | rfl
    · exact ⟨1, by decide +kernel +revert, by decide +kernel +revert⟩
    · exact ⟨2, by decide +kernel +revert, by decide +kernel +revert⟩
    · exact ⟨3, by decide +kernel +revert, by decide +kernel +revert⟩
  · have : i = 0 ∨ i = 1 ∨ i = 2 := by
      have : exSym.o.rxns.length = 3 := by decide
      omega
    rcases this with rfl | rfl | rfl
    · exact ⟨1, -1, by decide +kernel +revert, by decide +kernel +revert, by decide +kernel +revert⟩
    · exact ⟨2, 1, by decide +kernel +revert, by decide +kernel +revert, by decide +kernel +revert⟩
    · exact ⟨3, 2, by decide +kernel +revert, by decide +kernel +revert, by decide +kernel +revert⟩

example : (do ratesBySym exExp (← prepare exSym) [1 / 2, 1 / 5]) = getRates exMF exSymK [1 / 2, 1 / 5] := by decide +kernel
example : (do tofBySym exExp (← prepare exSym) [1 / 2, 1 / 5]) = .ok [-89 / 1600, -3 / 40, 1 / 50] := by decide +kernel
example : (do rateConstantsBySym exExp (← prepare exSym)) = .ok exSymK := by decide +kernel

/-- Three equilibrium constants. -/
example : ∃ s, prepare exSym = .ok s ∧ s.free.isSome ∧ s.o.rxns.length = 3 := ⟨_, rfl, rfl, rfl⟩

/-- **C71** (refuted) A site whose name contains a star: the numerical rates exist, the symbolic ones
do not. -/
theorem C71_starred_site_refuted :
    let rxns := [str! "CO_g + *_s* -> CO_s*"]
    let o : MFOwner ℚ := ⟨rxns, netOf rxns, [(str! "*_s*", 1)], [(str! "CO_g", 1)], []⟩
    parseNetwork rxns = .ok (netOf rxns) ∧ getRates o ([1], [1]) [1 / 4] = .ok ([3 / 4], [1 / 4]) ∧
      (do ratesBySym exExp (← prepare ⟨o, none, none, some [1], some [1], 1, 1, 1⟩) [1 / 4]) = .error .ParameterError := by
  refine ⟨?_, ?_, ?_⟩ <;> decide +kernel

/-- **C71** (refuted) A liquid reactant: the numerical rates exist, the symbolic ones do not. -/
theorem C71_liquid_example_refuted :
    let rxns := [str! "H2O_l + *_s -> H2O_s"]
    let o : MFOwner ℚ := ⟨rxns, netOf rxns, [(str! "*_s", 1)], [], [(str! "H2O_l", 2)]⟩
    parseNetwork rxns = .ok (netOf rxns) ∧ getRates o ([1], [1]) [1 / 4] = .ok ([3 / 2], [1 / 4]) ∧
      (do ratesBySym exExp (← prepare ⟨o, none, none, some [1], some [1], 1, 1, 1⟩) [1 / 4]) = .error .KeyError := by
  refine ⟨?_, ?_, ?_⟩ <;> decide +kernel

/-- **C71** Without `get_data_symbols` or without `get_data` every symbolic value raises. -/
theorem C71_needs_preparation (ex : K → K) (s : SymSolver K) (h : s.free = none ∨ s.data = none) (cvgs : List K) :
    (∀ r, ratesBySym ex s cvgs ≠ .ok r) ∧ (∀ r, rateConstantsBySym ex s ≠ .ok r) ∧ (∀ r, steadyBySym ex s cvgs ≠ .ok r) := by
  have key : ∀ c d, getSubsDict s c ≠ .ok d := by
    intro c d hd
    unfold getSubsDict at hd
    by_cases hf : s.free.isNone
    · simp [hf, bind, Except.bind] at hd
    · rw [if_neg hf] at hd
      rcases h with h | h
      · simp [h] at hf
      rw [bind_ok] at hd
      obtain ⟨_, _, hd⟩ := hd
      rw [bind_ok] at hd
      obtain ⟨_, _, hd⟩ := hd
      rw [bind_ok] at hd
      obtain ⟨_, h4, hd⟩ := hd
      unfold dataSubs at h4
      rw [h] at h4
      cases h4
  refine ⟨?_, ?_, ?_⟩
  · intro r hr
    unfold ratesBySym at hr
    rw [bind_ok] at hr
    obtain ⟨_, _, hr⟩ := hr
    rw [bind_ok] at hr
    obtain ⟨d, hd, _⟩ := hr
    exact key _ d hd
  · intro r hr
    unfold rateConstantsBySym at hr
    by_cases hf : s.free.isNone
    · simp [hf, bind, Except.bind] at hr
    · rw [if_neg hf] at hr
      rw [bind_ok] at hr
      obtain ⟨d, hd, _⟩ := hr
      exact key _ d hd
  · intro r hr
    unfold steadyBySym at hr
    rw [bind_ok] at hr
    obtain ⟨_, _, hr⟩ := hr
    rw [bind_ok] at hr
    obtain ⟨d, hd, _⟩ := hr
    exact key _ d hd

example : ratesBySym exExp exSym [1 / 2, 1 / 5] = .error .AttributeError := by decide +kernel

/-- Without forward barriers or without reaction energies among the relative energies every symbolic value raises. -/
theorem C71_no_energies (ex : K → K) (s : SymSolver K) (h : s.gaf = none ∨ s.dg = none) (cvgs : List K) :
    (∀ r, ratesBySym ex s cvgs ≠ .ok r) ∧ (∀ r, rateConstantsBySym ex s ≠ .ok r) ∧ (∀ r, steadyBySym ex s cvgs ≠ .ok r) := by
  have key : ∀ c d, getSubsDict s c ≠ .ok d := by
    intro c d hd
    unfold getSubsDict at hd
    by_cases hf : s.free.isNone
    · simp [hf, bind, Except.bind] at hd
    · rw [if_neg hf] at hd
      rw [bind_ok] at hd
      obtain ⟨_, h3, hd⟩ := hd
      rw [bind_ok] at hd
      obtain ⟨_, h4, hd⟩ := hd
      rcases h with h | h
      · rw [h] at h3; cases h3
      · rw [h] at h4; cases h4
  refine ⟨?_, ?_, ?_⟩
  · intro r hr
    unfold ratesBySym at hr
    rw [bind_ok] at hr
    obtain ⟨_, _, hr⟩ := hr
    rw [bind_ok] at hr
    obtain ⟨d, hd, _⟩ := hr
    exact key _ d hd
  · intro r hr
    unfold rateConstantsBySym at hr
    by_cases hf : s.free.isNone
    · simp [hf, bind, Except.bind] at hr
    · rw [if_neg hf] at hr
      rw [bind_ok] at hr
      obtain ⟨d, hd, _⟩ := hr
      exact key _ d hd
  · intro r hr
    unfold steadyBySym at hr
    rw [bind_ok] at hr
    obtain ⟨_, _, hr⟩ := hr
    rw [bind_ok] at hr
    obtain ⟨d, hd, _⟩ := hr
    exact key _ d hd

example : (do ratesBySym exExp { (← prepare exSym) with gaf := none } [1 / 2, 1 / 5]) = .error .KeyError := by decide +kernel

/-- The symbols of an expression. -/
def SymExpr.Has (s : Symb) : SymExpr K → Prop
  | .num _ => False
  | .sym t => t = s
  | .add a b | .sub a b | .mul a b | .div a b => a.Has s ∨ b.Has s
  | .pow a _ | .exp a => a.Has s

theorem evalSym_value {ex : K → K} {d : Dict Symb K} {t : Symb} (ht : get? d t = none) :
    ∀ (e : SymExpr K) (x : K), evalSym ex d e = .ok x → ¬ e.Has t := by
  intro e
  induction e with
  | num _ => intro x _ h; exact h
  | sym s =>
    rintro x hx rfl
    rw [evalSym, ht] at hx
    cases hx
  | add a b iha ihb | sub a b iha ihb | mul a b iha ihb | div a b iha ihb =>
    intro x hx h
    rw [evalSym, bind_ok] at hx
    obtain ⟨y, hy, hx⟩ := hx
    rw [bind_ok] at hx
    obtain ⟨z, hz, _⟩ := hx
    rcases h with h | h
    · exact iha y hy h
    · exact ihb z hz h
  | pow a n ih | exp a ih =>
    intro x hx h
    rw [evalSym, bind_ok] at hx
    obtain ⟨y, hy, _⟩ := hx
    exact ih y hy h

theorem stateSym_has {n : Network} {free : List (SymExpr K)} {t : Symb} {f : Formula} {e : SymExpr K} (hf : extractOf n free f = .ok e)
    (he : e.Has t) : ∀ (fs : List Formula) (k r : SymExpr K), stateSym n free k fs = .ok r → k.Has t ∨ f ∈ fs → r.Has t := by
  intro fs
  induction fs with
  | nil =>
    intro k r hr h
    cases hr
    simpa using h
  | cons g fs ih =>
    intro k r hr h
    rw [stateSym, bind_ok] at hr
    obtain ⟨e', he', hr⟩ := hr
    refine ih _ r hr ?_
    rcases h with h | h
    · exact Or.inl (Or.inl h)
    · rcases List.mem_cons.mp h with rfl | h
      · rw [hf] at he'
        cases he'
        exact Or.inl (Or.inr he)
      · exact Or.inr h

theorem stateSym_extract {n : Network} {free : List (SymExpr K)} : ∀ (fs : List Formula) (k r : SymExpr K),
    stateSym n free k fs = .ok r → ∀ f ∈ fs, ∃ e, extractOf n free f = .ok e := by
  intro fs
  induction fs with
  | nil => intro k r _ f hf; cases hf
  | cons g fs ih =>
    intro k r hr f hf
    rw [stateSym, bind_ok] at hr
    obtain ⟨e', he', hr⟩ := hr
    rcases List.mem_cons.mp hf with rfl | hf
    · exact ⟨e', he'⟩
    · exact ih _ r hr f hf

theorem get?_zip_none {ks : List Symb} {vs : List K} {t : Symb} (h : ∀ j : Nat, ks[j]? = some t → vs.length ≤ j) :
    get? (zipDict ks vs) t = none := by
  rw [get?_zipDict]
  rw [get?_eq_none]
  intro hk
  obtain ⟨p, hp, e⟩ := List.mem_map.mp hk
  obtain ⟨j, hj⟩ := List.getElem?_of_mem hp
  rw [List.getElem?_zip_eq_some] at hj
  have h1 := h j (by rw [hj.1, e])
  have h2 := (List.getElem?_eq_some_iff.mp hj.2).1
  omega

theorem get?_merge_none {a b : Dict Symb K} {t : Symb} (hb : (keys b).Nodup) (h1 : get? a t = none) (h2 : get? b t = none) :
    get? (mergeDicts a b) t = none := by
  rw [get?_mergeDicts a b hb, h2, h1]

theorem subs_values {s : SymSolver K} {cvgs : List K} {d : Dict Symb K} (hd : getSubsDict s cvgs = .ok d) :
    ∃ gaf dg, s.gaf = some gaf ∧ s.dg = some dg ∧
      (∀ i, gaf.length ≤ i → get? d (.ga i) = none) ∧ (∀ i, dg.length ≤ i → get? d (.dg i) = none) ∧
      ∀ a, (∀ (j : Nat), s.o.net.ads[j]? = some a → cvgs.length ≤ j) → get? d (.theta a) = none := by
  unfold getSubsDict at hd
  by_cases hf : s.free.isNone
  · simp [hf, bind, Except.bind] at hd
  rw [if_neg hf] at hd
  rw [bind_ok] at hd
  obtain ⟨gaf, h3, hd⟩ := hd
  rw [bind_ok] at hd
  obtain ⟨dg, h4, hd⟩ := hd
  rw [bind_ok] at hd
  obtain ⟨ps, h5, hd⟩ := hd
  have hps : (keys ps).Nodup ∧ ∀ t, (∀ g, t ≠ .p g) → get? ps t = none := by
    unfold dataSubs at h5
    split at h5
    · cases h5
    rw [bind_ok] at h5
    obtain ⟨vs, -, h5⟩ := h5
    split at h5
    · cases h5
    cases h5
    refine ⟨nodup_zipDict _ _, fun t ht => get?_zip_none fun j hj => ?_⟩
    rw [List.getElem?_map] at hj
    obtain ⟨g, -, e⟩ := Option.map_eq_some_iff.mp hj
    exact absurd e.symm (ht g)
  have other : ∀ {α : Type} (c : α → Symb) (l : List α) (vs : List K) (t : Symb), (∀ x, t ≠ c x) → get? (zipDict (l.map c) vs) t = none := by
    intro α c l vs t ht
    refine get?_zip_none fun j hj => ?_
    rw [List.getElem?_map] at hj
    obtain ⟨g, -, e⟩ := Option.map_eq_some_iff.mp hj
    exact absurd e.symm (ht g)
  have consts : ∀ t, t ≠ .kB → t ≠ .h → t ≠ .T → get? (zipDict [.kB, .h, .T] [s.kB, s.h, s.T]) t = none := by
    intro t h1 h2 h3
    refine get?_zip_none fun j hj => ?_
    have := List.mem_of_getElem? hj
    simp [h1, h2, h3] at this
  have range : ∀ (c : Nat → Symb) (hc : Function.Injective c) (vs : List K) (i : Nat), vs.length ≤ i →
      get? (zipDict ((List.range s.o.rxns.length).map c) vs) (c i) = none := by
    intro c hc vs i hi
    refine get?_zip_none fun j hj => ?_
    rw [List.getElem?_map] at hj
    obtain ⟨g, hg, e⟩ := Option.map_eq_some_iff.mp hj
    have := hc e
    subst this
    rw [List.getElem?_range (by
      have := (List.getElem?_eq_some_iff.mp hg).1
      simpa using this)] at hg
    cases hg
    exact hi
  cases hd
  refine ⟨gaf, dg, ?_, ?_, ?_, ?_, ?_⟩
  · unfold relKey at h3; split at h3 <;> cases h3; assumption
  · unfold relKey at h4; split at h4 <;> cases h4; assumption
  · intro i hi
    refine get?_merge_none hps.1 (get?_merge_none (nodup_zipDict _ _) (get?_merge_none (nodup_zipDict _ _)
      (get?_merge_none (nodup_zipDict _ _) ?_ ?_) ?_) ?_) (hps.2 _ (by simp))
    · exact range .ga (fun _ _ h => Symb.ga.inj h) _ _ hi
    · exact other _ _ _ _ (by simp)
    · exact other _ _ _ _ (by simp)
    · exact consts _ (by simp) (by simp) (by simp)
  · intro i hi
    refine get?_merge_none hps.1 (get?_merge_none (nodup_zipDict _ _) (get?_merge_none (nodup_zipDict _ _)
      (get?_merge_none (nodup_zipDict _ _) ?_ ?_) ?_) ?_) (hps.2 _ (by simp))
    · exact other _ _ _ _ (by simp)
    · exact range .dg (fun _ _ h => Symb.dg.inj h) _ _ hi
    · exact other _ _ _ _ (by simp)
    · exact consts _ (by simp) (by simp) (by simp)
  · intro a ha
    refine get?_merge_none hps.1 (get?_merge_none (nodup_zipDict _ _) (get?_merge_none (nodup_zipDict _ _)
      (get?_merge_none (nodup_zipDict _ _) ?_ ?_) ?_) ?_) (hps.2 _ (by simp))
    · exact other _ _ _ _ (by simp)
    · exact other _ _ _ _ (by simp)
    · refine get?_zip_none fun j hj => ha j ?_
      rw [List.getElem?_map] at hj
      obtain ⟨g, hg, e⟩ := Option.map_eq_some_iff.mp hj
      cases e
      exact hg
    · exact consts _ (by simp) (by simp) (by simp)

/-- With fewer energies than reactions no rate constants come back: nothing is put in place of a missing energy. -/
theorem C71_few_energies (ex : K → K) (s : SymSolver K) (gaf dg : List K) (h1 : s.gaf = some gaf) (h2 : s.dg = some dg)
    (h : gaf.length < s.o.rxns.length ∨ dg.length < s.o.rxns.length) : ∀ r, rateConstantsBySym ex s ≠ .ok r := by
  intro r hr
  unfold rateConstantsBySym at hr
  by_cases hf : s.free.isNone
  · simp [hf, bind, Except.bind] at hr
  rw [if_neg hf] at hr
  rw [bind_ok] at hr
  obtain ⟨d, hd, hr⟩ := hr
  rw [bind_ok] at hr
  obtain ⟨kfs, e1, hr⟩ := hr
  rw [bind_ok] at hr
  obtain ⟨krs, e2, -⟩ := hr
  obtain ⟨gaf', dg', g1, g2, g3, g4, -⟩ := subs_values hd
  rw [h1] at g1; rw [h2] at g2
  cases g1; cases g2
  rcases h with h | h
  · obtain ⟨x, -, hx⟩ := (mapM_ok_mem e1).2 _ (List.mem_range.mpr h)
    exact evalSym_value (g3 _ (le_refl _)) _ x hx (by simp [kfSym, kSym, SymExpr.Has])
  · obtain ⟨x, -, hx⟩ := (mapM_ok_mem e2).2 _ (List.mem_range.mpr h)
    exact evalSym_value (g4 _ (le_refl _)) _ x hx (by simp [krSym, kSym, SymExpr.Has])

example : (do rateConstantsBySym exExp { (← prepare exSym) with gaf := some [1, 2] }) = .error .TypeError := by decide +kernel

/-- With too few coverages no rates come back, if an adsorbate that has no coverage takes part in a reaction. -/
theorem C71_few_coverages (ex : K → K) (s : SymSolver K) (cvgs : List K) (rxn : Str) (hr : rxn ∈ s.o.rxns) (states : List (List Formula))
    (hs : eqnFormulas rxn = .ok states) (fs : List Formula) (hfs : states.head? = some fs ∨ states.getLast? = some fs)
    (f : Formula) (hf : f ∈ fs) (ht : f.type = .adsorbate) (hl : ∀ j : Nat, s.o.net.ads[j]? = some f.speciesSite → cvgs.length ≤ j) :
    ∀ r, ratesBySym ex s cvgs ≠ .ok r := by
  intro r h
  unfold ratesBySym at h
  rw [bind_ok] at h
  obtain ⟨es, e1, h⟩ := h
  rw [bind_ok] at h
  obtain ⟨d, hd, h⟩ := h
  rw [bind_ok] at h
  obtain ⟨rfs, e2, h⟩ := h
  rw [bind_ok] at h
  obtain ⟨rrs, e3, -⟩ := h
  obtain ⟨-, -, -, -, -, -, hth⟩ := subs_values hd
  have hnone := hth f.speciesSite hl
  obtain ⟨e, hmem, he⟩ := (mapM_ok_mem e1).2 _ hr
  obtain ⟨x, -, hx⟩ := (mapM_ok_mem e2).2 _ hmem
  obtain ⟨y, -, hy⟩ := (mapM_ok_mem e3).2 _ hmem
  unfold rateSym at he
  rw [if_neg (by simpa using hr)] at he
  split at he
  · cases he
  rename_i free hfree
  rw [hs] at he
  dsimp only [bind, Except.bind] at he
  split at he
  · rename_i is fs' h1 h2
    split at he
    · cases he
    rename_i rf hrf
    split at he
    · cases he
    rename_i rr hrr
    cases he
    have hext : ∀ (l : List Formula) k r, f ∈ l → stateSym s.o.net free k l = .ok r → r.Has (.theta f.speciesSite) := by
      intro l k r hfl hr
      obtain ⟨e, he⟩ := stateSym_extract l k r hr f hfl
      have : e.Has (.theta f.speciesSite) := by
        unfold extractOf at he
        rw [ht] at he
        dsimp only at he
        unfold extractAds at he
        split at he
        · cases he; rfl
        · cases he
      exact stateSym_has he this l k r hr (Or.inr hfl)
    rcases hfs with hfs | hfs
    · rw [h1] at hfs; cases hfs
      exact evalSym_value hnone _ x hx (hext _ _ _ hf hrf)
    · rw [h2] at hfs; cases hfs
      exact evalSym_value hnone _ y hy (hext _ _ _ hf hrr)
  · cases he

/-- A single coverage for the two adsorbates of CO oxidation. -/
example : (do ratesBySym exExp (← prepare exSym) [1 / 2]) = .error .TypeError := by decide +kernel


/-! ## C29 symbolic coverage equations -/

/-- The side on which the adsorbate is found: −1 in the first state, 1 in a later one, 0 if absent. -/
def sideOf (a : Str) (states : List (List Formula)) : Int :=
  match findAds a states with
  | none => 0
  | some (0, _) => -1
  | some (_ + 1, _) => 1

theorem foldl_sym (ex : K → K) (d : Dict Symb K) (l : List (Option (SymExpr K))) (xs : List K) (e0 : SymExpr K) (x0 : K)
    (h : List.Forall₂ (fun e x => match e with
      | none => x = 0
      | some e => evalSym ex d e = .ok x) l xs) (h0 : evalSym ex d e0 = .ok x0) :
    evalSym ex d (l.foldl (fun t x => match x with | none => t | some e => .add t e) e0) = .ok (x0 + xs.sum) := by
  induction h generalizing e0 x0 with
  | nil => simpa using h0
  | @cons e x l xs h1 h2 ih =>
    rw [List.foldl_cons, List.sum_cons, ← add_assoc]
    cases e with
    | none =>
      dsimp only at h1 ⊢
      subst h1
      exact ih _ _ (by simpa using h0)
    | some e =>
      dsimp only at h1 ⊢
      exact ih _ _ (by simp only [evalSym, h0, h1, bind, Except.bind, pure, Except.pure])

/-- The expression of a coverage derivative and its values. -/
theorem dtheta_ok (ex : K → K) {s : SymSolver K} {total P C : Str → K} {A D : Nat → K} (h : SymOk s total P C A D)
    {kf kr : List K}
    (hkf : KOk s.o.rxns kf (fun r => tst ex s.kB s.h s.T (A (s.o.rxns.idxOf r))))
    (hkr : KOk s.o.rxns kr (fun r => tst ex s.kB s.h s.T (A (s.o.rxns.idxOf r) - D (s.o.rxns.idxOf r))))
    {a : Str} (ha : a ∈ s.o.net.ads) :
    ∃ e, adsorbateDthetaSym s a = .ok e ∧ ∀ v d, SubsOk s P v A D d →
      ∃ net, getNetRates s.o (kf, kr) (s.o.net.ads.map v) = .ok net ∧ net.length = s.o.rxns.length ∧
        evalSym ex d e = .ok (List.zipWith (fun states r => (sideOf a states : K) * r) s.o.net.rxns net).sum := by
  obtain ⟨es, he, hl, hv⟩ := rates_ok ex h hkf hkr
  obtain ⟨l1, l2⟩ := mapM_ok_inv he
  have hlr := length_rxns h.ready.parse
  have single : ∀ i (hi : i < s.o.rxns.length), elementaryDthetaSym s a s.o.rxns[i] = .ok
      (match findAds a (s.o.net.rxns[i]'(by omega)) with
        | none => none
        | some (0, _) => some (.add (.sub (.num 0) (es[i]'(by omega)).1) (es[i]'(by omega)).2)
        | some (_ + 1, _) => some (.sub (es[i]'(by omega)).1 (es[i]'(by omega)).2)) := by
    intro i hi
    obtain ⟨st, is, fs, b1, b2, -⟩ := states_ok h.ready.parse hi
    have hst : s.o.net.rxns[i]'(by omega) = st := by
      rw [List.getElem?_eq_getElem (by omega)] at b2
      exact Option.some.inj b2
    unfold elementaryDthetaSym
    rw [if_neg (by simpa using ha), if_neg (by simp), b1, hst]
    simp only [bind, Except.bind]
    cases hf : findAds a st with
    | none => rfl
    | some x =>
      obtain ⟨j, n⟩ := x
      simp only [l2 i hi (by omega)]
      cases j <;> rfl
  obtain ⟨l, hel⟩ := mapM_ok_exists (f := elementaryDthetaSym s a) (l := s.o.rxns) (fun r hr => by
    obtain ⟨i, hi, rfl⟩ := List.mem_iff_getElem.mp hr
    exact ⟨_, single i hi⟩)
  obtain ⟨n1, n2⟩ := mapM_ok_inv hel
  refine ⟨_, by unfold adsorbateDthetaSym; rw [hel]; rfl, ?_⟩
  intro v d hd
  obtain ⟨rfs, rrs, r1, r2, r3, r4⟩ := hv v d hd
  refine ⟨List.zipWith (· - ·) rfs rrs, by unfold getNetRates; rw [r1]; rfl, by simp; omega, ?_⟩
  refine (foldl_sym ex d l (List.zipWith (fun states r => (sideOf a states : K) * r) s.o.net.rxns (List.zipWith (· - ·) rfs rrs))
    (.num 0) 0 ?_ rfl).trans (by rw [zero_add])
  rw [List.forall₂_iff_get]
  refine ⟨by simp; omega, fun i h1 h2 => ?_⟩
  have hi : i < s.o.rxns.length := by omega
  have := n2 i hi h1
  rw [single i hi] at this
  obtain ⟨a1, a2⟩ := r4 i (by omega) (by omega) (by omega)
  simp only [List.get_eq_getElem, List.getElem_zipWith]
  rw [← Except.ok.inj this]
  unfold sideOf
  cases hf : findAds a (s.o.net.rxns[i]'(by omega)) with
  | none => simp
  | some x =>
    obtain ⟨j, n⟩ := x
    cases j with
    | zero =>
      simp only [evalSym, a1, a2, bind, Except.bind, pure, Except.pure]
      congr 1
      push_cast
      ring
    | succ j =>
      simp only [evalSym, a1, a2, bind, Except.bind, pure, Except.pure]
      congr 1
      push_cast
      ring

/-- **C29** What the symbolic coverage equations compute: each reaction counts with plus or minus one
times its net rate. -/
theorem C29_values_partial (ex : K → K) (s0 : SymSolver K) (total P C : Str → K) (gaf dg kf kr : List K)
    (h : SymGiven s0 total P C gaf dg) (hk : KGiven ex s0 gaf dg kf kr) :
    ∃ s, prepare s0 = .ok s ∧ ∀ cvgs : List K, cvgs.length = s0.o.net.ads.length →
      ∃ net, getNetRates s0.o (kf, kr) cvgs = .ok net ∧
        steadyBySym ex s cvgs = .ok (s0.o.net.ads.map fun a =>
          (List.zipWith (fun states r => (sideOf a states : K) * r) s0.o.net.rxns net).sum) := by
  obtain ⟨s, hp, e1, e2, e3, e4, hs⟩ := prepare_ok h
  refine ⟨s, hp, ?_⟩
  intro cvgs hlen
  obtain ⟨v, rfl⟩ := tuple_as_function (ads_nodup h.ready.parse) hlen
  obtain ⟨k1, k2⟩ := kGiven_ok hk
  rw [← e1] at *
  rw [← e2, ← e3, ← e4] at k1 k2
  obtain ⟨d, hd1, hd2⟩ := subs_ok hs v
  obtain ⟨es, he, hl, hv⟩ := rates_ok ex hs k1 k2
  obtain ⟨rfs, rrs, r1, -⟩ := hv v d hd2
  refine ⟨List.zipWith (· - ·) rfs rrs, by unfold getNetRates; rw [r1]; rfl, ?_⟩
  obtain ⟨xs, hxs⟩ := mapM_ok_exists (f := adsorbateDthetaSym s) (l := s.o.net.ads) (fun a ha => by
    obtain ⟨e, he, -⟩ := dtheta_ok ex hs k1 k2 ha
    exact ⟨e, he⟩)
  obtain ⟨n1, n2⟩ := mapM_ok_inv hxs
  unfold steadyBySym
  simp only [hxs, hd1, bind, Except.bind]
  refine mapM_ext (by simp [n1]) fun i h1 h2 => ?_
  have hi : i < s.o.net.ads.length := by omega
  obtain ⟨e, he, hv⟩ := dtheta_ok ex hs k1 k2 (List.getElem_mem hi)
  have := n2 i hi h1
  rw [he] at this
  obtain ⟨net, m1, m2, m3⟩ := hv v d hd2
  have hn : net = List.zipWith (· - ·) rfs rrs := by
    unfold getNetRates at m1
    rw [r1] at m1
    exact (Except.ok.inj m1).symm
  rw [← Except.ok.inj this, m3, hn, List.getElem_map]

/-- **C29** They agree with the numerical coverage equations when every number in front of an adsorbate
is one. Missing: other coefficients, refuted below; liquids and starred sites, see C71. -/
theorem C29_agreement_partial (ex : K → K) (s0 : SymSolver K) (total P C : Str → K) (gaf dg kf kr : List K)
    (h : SymGiven s0 total P C gaf dg) (hk : KGiven ex s0 gaf dg kf kr)
    (hone : ∀ states ∈ s0.o.net.rxns, ∀ fs ∈ states, ∀ f ∈ fs, f.speciesSite ∈ s0.o.net.ads → f.stoich = 1) :
    ∃ s, prepare s0 = .ok s ∧ ∀ cvgs : List K, cvgs.length = s0.o.net.ads.length →
      ∃ derivs, steadyStateFunction s0.o (kf, kr) cvgs = .ok derivs ∧ steadyBySym ex s cvgs = .ok derivs := by
  obtain ⟨s, hp, hv⟩ := C29_values_partial ex s0 total P C gaf dg kf kr h hk
  refine ⟨s, hp, fun cvgs hlen => ?_⟩
  obtain ⟨net, h1, h2⟩ := hv cvgs hlen
  obtain ⟨v, rfl⟩ := tuple_as_function (ads_nodup h.ready.parse) hlen
  obtain ⟨k1, k2⟩ := kGiven_ok hk
  obtain ⟨net', g1, g2, g3⟩ := steady_ok s0.o total P C h.ready h.clean v kf kr _ _ k1 k2
  rw [h1] at g1
  cases g1
  refine ⟨_, g3, ?_⟩
  rw [h2]
  congr 1
  apply List.map_congr_left
  intro a ha
  congr 1
  have hco : ∀ states ∈ s0.o.net.rxns, sideOf a states = codeCoef a states := by
    intro states hst
    have hs1 : ∀ l : List (List Formula), (∀ fs ∈ l, fs ∈ states) → ∀ j n, findAds a l = some (j, n) → n = 1 := by
      intro l
      induction l with
      | nil => intro _ j n hf; cases hf
      | cons fs l ih =>
        intro hl j n hf
        unfold findAds at hf
        cases hq : fs.find? (fun x => decide (x.speciesSite = a)) with
        | some f =>
          rw [hq] at hf
          cases hf
          have e := List.find?_some hq
          have e : f.speciesSite = a := by simpa using e
          exact hone states hst fs (hl fs (by simp)) f (List.mem_of_find?_eq_some hq) (e ▸ ha)
        | none =>
          rw [hq] at hf
          dsimp only at hf
          rw [Option.map_eq_some_iff] at hf
          obtain ⟨⟨j', n'⟩, e1, e2⟩ := hf
          cases e2
          exact ih (fun gs hgs => hl gs (by simp [hgs])) _ _ e1
    unfold sideOf codeCoef
    cases hf : findAds a states with
    | none => rfl
    | some x =>
      obtain ⟨j, n⟩ := x
      have := hs1 states (fun _ h => h) j n hf
      subst this
      cases j <;> rfl
  generalize s0.o.net.rxns = rs at hco
  clear h1 h2 g2 g3
  induction rs generalizing net with
  | nil => rfl
  | cons st rs ih =>
    cases net with
    | nil => rfl
    | cons r net =>
      rw [List.zipWith_cons_cons, List.zipWith_cons_cons, hco st (by simp), ih net fun q hq => hco q (by simp [hq])]

/-- The coefficients of a small network are one, and both functions return the same numbers. -/
def exIsoSym : SymSolver ℚ :=
  let rxns := [str! "CO_g + *_s -> CO_s", str! "CO_s -> OC_s"]
  ⟨⟨rxns, netOf rxns, [(str! "*_s", 1)], [(str! "CO_g", 1)], []⟩, none, none, some [1, 2], some [-1, 1], 1 / 2, 2, 4⟩
example : (∀ states ∈ exIsoSym.o.net.rxns, ∀ fs ∈ states, ∀ f ∈ fs, f.speciesSite ∈ exIsoSym.o.net.ads → f.stoich = 1) ∧
    (do steadyBySym exExp (← prepare exIsoSym) [1 / 2, 1 / 5]) = .ok [1 / 4, -1 / 10] ∧
    steadyStateFunction exIsoSym.o ([1 / 2, 0], [0, 1 / 2]) [1 / 2, 1 / 5] = .ok [1 / 4, -1 / 10] := by
  refine ⟨by decide, by decide +kernel, by decide +kernel⟩

/-- **C29** (refuted) Dissociative adsorption makes two adsorbates per event; the symbolic equation counts one. -/
theorem C29_dissociation_refuted :
    (do steadyBySym exExp (← prepare ⟨exDissMF, none, none, some [0], some [1], 1, 1, 1⟩) [1 / 2]) = .ok [-1 / 4] ∧
    getNetRates exDissMF ([1], [2]) [1 / 2] = .ok [-1 / 4] ∧
    steadyStateFunction exDissMF ([1], [2]) [1 / 2] = .ok [-1 / 2] ∧
    (do rateConstantsBySym exExp (← prepare ⟨exDissMF, none, none, some [0], some [1], 1, 1, 1⟩)) = .ok ([1], [2]) := by
  refine ⟨?_, ?_, ?_, ?_⟩ <;> decide +kernel

/-- The symbolic derivative is the derivative: where an expression has a value, its symbolic derivative
has one, and it is the derivative of the value as a function of the symbol. -/
theorem deriv_sound (d : Dict Symb ℝ) (s : Symb) (x0 : ℝ) (hx : get? d s = some x0) (e : SymExpr ℝ) (y : ℝ)
    (h : evalSym Real.exp d e = .ok y) :
    ∃ y', evalSym Real.exp d (e.deriv s) = .ok y' ∧ ∃ f : ℝ → ℝ,
      (∀ᶠ x in nhds x0, evalSym Real.exp (Dict.set d s x) e = .ok (f x)) ∧ f x0 = y ∧ HasDerivAt f y' x0 := by
  induction e generalizing y with
  | num c =>
    cases h
    exact ⟨0, rfl, fun _ => c, Filter.Eventually.of_forall fun _ => rfl, rfl, hasDerivAt_const x0 c⟩
  | sym t =>
    by_cases ht : t = s
    · subst ht
      simp only [evalSym, hx] at h
      cases h
      refine ⟨1, by simp [SymExpr.deriv, evalSym], id, Filter.Eventually.of_forall fun x => ?_, rfl, hasDerivAt_id x0⟩
      simp [evalSym, get?_set]
    · refine ⟨0, by simp [SymExpr.deriv, evalSym, ht], fun _ => y, Filter.Eventually.of_forall fun x => ?_, rfl, hasDerivAt_const x0 y⟩
      simp only [evalSym, get?_set, if_neg (Ne.symm ht)]
      exact h
  | add a b iha ihb =>
    simp only [evalSym] at h
    rw [bind_ok] at h
    obtain ⟨ya, h1, h⟩ := h
    rw [bind_ok] at h
    obtain ⟨yb, h2, h⟩ := h
    cases h
    obtain ⟨a', a1, fa, a2, a3, a4⟩ := iha ya h1
    obtain ⟨b', b1, fb, b2, b3, b4⟩ := ihb yb h2
    refine ⟨a' + b', by simp only [SymExpr.deriv, evalSym, a1, b1, bind, Except.bind, pure, Except.pure], fun x => fa x + fb x, ?_, by simp only [a3, b3], a4.add b4⟩
    filter_upwards [a2, b2] with x e1 e2
    simp only [evalSym, e1, e2, bind, Except.bind, pure, Except.pure]
  | sub a b iha ihb =>
    simp only [evalSym] at h
    rw [bind_ok] at h
    obtain ⟨ya, h1, h⟩ := h
    rw [bind_ok] at h
    obtain ⟨yb, h2, h⟩ := h
    cases h
    obtain ⟨a', a1, fa, a2, a3, a4⟩ := iha ya h1
    obtain ⟨b', b1, fb, b2, b3, b4⟩ := ihb yb h2
    refine ⟨a' - b', by simp only [SymExpr.deriv, evalSym, a1, b1, bind, Except.bind, pure, Except.pure], fun x => fa x - fb x, ?_, by simp only [a3, b3], a4.sub b4⟩
    filter_upwards [a2, b2] with x e1 e2
    simp only [evalSym, e1, e2, bind, Except.bind, pure, Except.pure]
  | mul a b iha ihb =>
    simp only [evalSym] at h
    rw [bind_ok] at h
    obtain ⟨ya, h1, h⟩ := h
    rw [bind_ok] at h
    obtain ⟨yb, h2, h⟩ := h
    cases h
    obtain ⟨a', a1, fa, a2, a3, a4⟩ := iha ya h1
    obtain ⟨b', b1, fb, b2, b3, b4⟩ := ihb yb h2
    refine ⟨a' * yb + ya * b', by simp only [SymExpr.deriv, evalSym, a1, b1, h1, h2, bind, Except.bind, pure, Except.pure],
      fun x => fa x * fb x, ?_, by simp only [a3, b3], ?_⟩
    · filter_upwards [a2, b2] with x e1 e2
      simp only [evalSym, e1, e2, bind, Except.bind, pure, Except.pure]
    · have := a4.mul b4
      rw [a3, b3] at this
      exact this
  | div a b iha ihb =>
    simp only [evalSym] at h
    rw [bind_ok] at h
    obtain ⟨ya, h1, h⟩ := h
    rw [bind_ok] at h
    obtain ⟨yb, h2, h⟩ := h
    rw [guard_ok] at h
    obtain ⟨h0, h⟩ := h
    cases h
    obtain ⟨a', a1, fa, a2, a3, a4⟩ := iha ya h1
    obtain ⟨b', b1, fb, b2, b3, b4⟩ := ihb yb h2
    refine ⟨(a' * yb - ya * b') / yb ^ 2, ?_, fun x => fa x / fb x, ?_, by simp only [a3, b3], ?_⟩
    · simp only [SymExpr.deriv, evalSym, a1, b1, h1, h2, bind, Except.bind, pure, Except.pure]
      rw [if_neg (pow_ne_zero 2 h0)]
    · have hne : ∀ᶠ x in nhds x0, fb x ≠ 0 := b4.continuousAt.eventually_ne (by rw [b3]; exact h0)
      filter_upwards [a2, b2, hne] with x e1 e2 e3
      simp only [evalSym, e1, e2, bind, Except.bind, pure, Except.pure, if_neg e3]
    · have := a4.div b4 (by rw [b3]; exact h0)
      rw [a3, b3] at this
      exact this
  | pow a n iha =>
    simp only [evalSym] at h
    rw [bind_ok] at h
    obtain ⟨ya, h1, h⟩ := h
    cases h
    obtain ⟨a', a1, fa, a2, a3, a4⟩ := iha ya h1
    refine ⟨(n : ℝ) * ya ^ (n - 1) * a', by simp only [SymExpr.deriv, evalSym, a1, h1, bind, Except.bind, pure, Except.pure],
      fun x => fa x ^ n, ?_, by simp only [a3], ?_⟩
    · filter_upwards [a2] with x e1
      simp only [evalSym, e1, bind, Except.bind, pure, Except.pure]
    · have := a4.pow n
      rw [a3] at this
      exact this
  | exp a iha =>
    simp only [evalSym] at h
    rw [bind_ok] at h
    obtain ⟨ya, h1, h⟩ := h
    cases h
    obtain ⟨a', a1, fa, a2, a3, a4⟩ := iha ya h1
    refine ⟨Real.exp ya * a', by simp only [SymExpr.deriv, evalSym, a1, h1, bind, Except.bind, pure, Except.pure],
      fun x => Real.exp (fa x), ?_, by simp only [a3], ?_⟩
    · filter_upwards [a2] with x e1
      simp only [evalSym, e1, bind, Except.bind, pure, Except.pure]
    · have := a4.exp
      rw [a3] at this
      exact this

theorem set_as_update {names : List Str} (hn : names.Nodup) (v : Str → K) (j : Nat) (hj : j < names.length) (x : K) :
    (names.map v).set j x = names.map (Function.update v names[j] x) := by
  apply List.ext_getElem
  · simp
  · intro i h1 h2
    have hi : i < names.length := by simpa using h2
    rw [List.getElem_set, List.getElem_map, List.getElem_map]
    by_cases e : j = i
    · subst e; simp
    · rw [if_neg e, Function.update_of_ne]
      intro e'
      exact e ((List.Nodup.getElem_inj_iff hn).mp e').symm

theorem jacobianSym_two (s : SymSolver K) {a0 a1 : Str} {x0 x1 : SymExpr K} (ha : s.o.net.ads = [a0, a1])
    (hx : s.o.net.ads.mapM (adsorbateDthetaSym s) = .ok [x0, x1]) :
    jacobianSym s = .ok [[x0.deriv (.theta a0), x0.deriv (.theta a1)], [x1.deriv (.theta a0), x1.deriv (.theta a1)]] := by
  unfold jacobianSym
  rw [hx]
  simp only [bind, Except.bind]
  have e0 : extractAds (K := K) s.o.net a0 = .ok (.sym (.theta a0)) := by simp [extractAds, ha]
  have e1 : extractAds (K := K) s.o.net a1 = .ok (.sym (.theta a1)) := by simp [extractAds, ha]
  simp only [ha, List.zipIdx_cons, List.zipIdx_nil, List.foldlM_cons, List.foldlM_nil, bind, Except.bind, e0, e1,
    setEntry, List.length_cons, List.length_nil, List.replicate]
  rfl

/-- **C29** With exactly two adsorbates, the symbolic Jacobian is the matrix of partial derivatives of the
symbolic coverage equations. -/
theorem C29_jacobian_two_partial (s0 : SymSolver ℝ) (total P C : Str → ℝ) (gaf dg kf kr : List ℝ)
    (h : SymGiven s0 total P C gaf dg) (hk : KGiven Real.exp s0 gaf dg kf kr) (h2 : s0.o.net.ads.length = 2) :
    ∃ s, prepare s0 = .ok s ∧ ∀ cvgs : List ℝ, cvgs.length = 2 →
      ∃ J : Nat → Nat → ℝ, jacobianBySym Real.exp s cvgs = .ok [[J 0 0, J 0 1], [J 1 0, J 1 1]] ∧
        ∀ i < 2, ∀ j < 2, ∃ F : ℝ → ℝ,
          (∀ x, ∃ ys, steadyBySym Real.exp s (cvgs.set j x) = .ok ys ∧ ys[i]? = some (F x)) ∧
          ∀ c, cvgs[j]? = some c → HasDerivAt F (J i j) c := by
  obtain ⟨s, hp, e1, e2, e3, e4, hs⟩ := prepare_ok h
  obtain ⟨s', hp', hval⟩ := C29_values_partial Real.exp s0 total P C gaf dg kf kr h hk
  rw [hp] at hp'
  cases hp'
  refine ⟨s, hp, ?_⟩
  intro cvgs hlen
  have hnd := ads_nodup h.ready.parse
  have h2' : s.o.net.ads.length = 2 := by rw [e1]; exact h2
  obtain ⟨v, rfl⟩ := tuple_as_function hnd (hlen.trans h2.symm)
  obtain ⟨k1, k2⟩ := kGiven_ok hk
  rw [← e1] at *
  rw [← e2, ← e3, ← e4] at k1 k2
  obtain ⟨es, hes⟩ := mapM_ok_exists (f := adsorbateDthetaSym s) (l := s.o.net.ads) (fun a ha => by
    obtain ⟨e, he, -⟩ := dtheta_ok Real.exp hs k1 k2 ha
    exact ⟨e, he⟩)
  obtain ⟨n1, n2⟩ := mapM_ok_inv hes
  obtain ⟨d, hd1, hd2⟩ := subs_ok hs v
  -- each equation has a value for all coverages
  have hex : ∀ i (hi : i < es.length) w d', SubsOk s P w (fun i => (gaf[i]?).getD 0) (fun i => (dg[i]?).getD 0) d' →
      ∃ y, evalSym Real.exp d' es[i] = .ok y := by
    intro i hi w d' hd'
    obtain ⟨e, he, hv⟩ := dtheta_ok Real.exp hs k1 k2 (List.getElem_mem (show i < s.o.net.ads.length by omega))
    have := n2 i (by omega) hi
    rw [he] at this
    obtain ⟨net, -, -, m3⟩ := hv w d' hd'
    rw [← Except.ok.inj this]
    exact ⟨_, m3⟩
  -- one entry
  have entry : ∀ i (hi : i < es.length) j (hj : j < s.o.net.ads.length), ∃ y',
      evalSym Real.exp d (es[i].deriv (.theta s.o.net.ads[j])) = .ok y' ∧ ∃ F : ℝ → ℝ,
        (∀ x, ∃ ys, steadyBySym Real.exp s ((s.o.net.ads.map v).set j x) = .ok ys ∧ ys[i]? = some (F x)) ∧
        HasDerivAt F y' (v s.o.net.ads[j]) := by
    intro i hi j hj
    obtain ⟨y, hy⟩ := hex i hi v d hd2
    obtain ⟨y', hy', f, f1, f2, f3⟩ := deriv_sound d (.theta s.o.net.ads[j]) (v s.o.net.ads[j])
      (by rw [hd2]; simp [symVal]) es[i] y hy
    refine ⟨y', hy', ?_⟩
    have each : ∀ x, ∃ ys z, steadyBySym Real.exp s ((s.o.net.ads.map v).set j x) = .ok ys ∧ ys[i]? = some z ∧
        evalSym Real.exp (Dict.set d (.theta s.o.net.ads[j]) x) es[i] = .ok z := by
      intro x
      rw [set_as_update hnd v j hj x]
      obtain ⟨d', g1, g2⟩ := subs_ok hs (Function.update v s.o.net.ads[j] x)
      obtain ⟨ys, hys⟩ := mapM_ok_exists (f := evalSym Real.exp d') (l := es) (fun e he => by
        obtain ⟨q, hq, rfl⟩ := List.mem_iff_getElem.mp he
        exact hex q hq _ d' g2)
      obtain ⟨q1, q2⟩ := mapM_ok_inv hys
      refine ⟨ys, ys[i]'(by omega), ?_, List.getElem?_eq_getElem (by omega), ?_⟩
      · unfold steadyBySym
        simp only [hes, g1, hys, bind, Except.bind]
      · rw [← q2 i hi (by omega)]
        apply evalSym_congr
        intro t
        rw [get?_set, g2 t]
        by_cases ht : .theta s.o.net.ads[j] = t
        · subst ht; simp [symVal]
        · rw [if_neg ht, hd2 t]
          cases t with
          | theta a =>
            simp only [symVal]
            rw [Function.update_of_ne]
            rintro rfl
            exact ht rfl
          | _ => rfl
    choose ys z b1 b2 b3 using each
    refine ⟨z, fun x => ⟨ys x, b1 x, b2 x⟩, f3.congr_of_eventuallyEq ?_⟩
    filter_upwards [f1] with x hx
    rw [b3 x] at hx
    exact Except.ok.inj hx
  choose J J1 hJ using entry
  obtain ⟨a0, a1, hads⟩ := List.length_eq_two.mp h2'
  obtain ⟨x0, x1, hxs⟩ := List.length_eq_two.mp (n1.trans h2')
  have jac := jacobianSym_two s hads (by rw [hes, hxs])
  have l0 : es.length = 2 := n1.trans h2'
  have g : ∀ i (hi : i < 2) j (hj : j < 2), ∃ y', (∃ e a, [x0, x1][i]? = some e ∧ [a0, a1][j]? = some a ∧
      evalSym Real.exp d (e.deriv (.theta a)) = .ok y') ∧ ∃ F : ℝ → ℝ,
        (∀ x, ∃ ys, steadyBySym Real.exp s ((s.o.net.ads.map v).set j x) = .ok ys ∧ ys[i]? = some (F x)) ∧
        ∀ c, (s.o.net.ads.map v)[j]? = some c → HasDerivAt F y' c := by
    intro i hi j hj
    obtain ⟨F, F1, F2⟩ := hJ i (by omega) j (by omega)
    refine ⟨_, ⟨es[i], s.o.net.ads[j], ?_, ?_, J1 i (by omega) j (by omega)⟩, F, F1, ?_⟩
    · rw [← hxs, List.getElem?_eq_getElem (by omega)]
    · rw [← hads, List.getElem?_eq_getElem (by omega)]
    · intro c hc
      rw [List.getElem?_map, List.getElem?_eq_getElem (by omega)] at hc
      cases hc
      exact F2
  choose! G G1 G2 using g
  refine ⟨G, ?_, G2⟩
  obtain ⟨_, _, q1, q2, v00⟩ := G1 0 (by omega) 0 (by omega); cases q1; cases q2
  obtain ⟨_, _, q1, q2, v01⟩ := G1 0 (by omega) 1 (by omega); cases q1; cases q2
  obtain ⟨_, _, q1, q2, v10⟩ := G1 1 (by omega) 0 (by omega); cases q1; cases q2
  obtain ⟨_, _, q1, q2, v11⟩ := G1 1 (by omega) 1 (by omega); cases q1; cases q2
  unfold jacobianBySym
  simp only [hd1, jac, bind, Except.bind]
  simp only [List.length_cons, List.length_nil, List.range_succ, List.range_zero, List.nil_append, List.cons_append,
    List.mapM_cons, List.mapM_nil, bind, Except.bind, pure, Except.pure, List.getElem?_cons_zero, List.getElem?_cons_succ,
    v00, v01, v10, v11]

/-- **C29** (refuted) For every other number of adsorbates the symbolic Jacobian cannot be computed. -/
theorem C29_jacobian_refuted (ex : K → K) (s : SymSolver K) (h2 : s.o.net.ads.length ≠ 2) (cvgs : List K) (J : List (List K)) :
    jacobianBySym ex s cvgs ≠ .ok J := by
  intro hJ
  unfold jacobianBySym at hJ
  rw [bind_ok] at hJ
  obtain ⟨d, -, hJ⟩ := hJ
  rw [bind_ok] at hJ
  obtain ⟨m, hm, hJ⟩ := hJ
  unfold jacobianSym at hm
  rw [bind_ok] at hm
  obtain ⟨es, hes, hm⟩ := hm
  have hl := (mapM_ok_inv hes).1
  -- shape of the matrix
  have shape : ∀ (m m' : List (List (SymExpr K))) (i j : Nat) (e : SymExpr K), setEntry m i j e = .ok m' →
      i < m.length ∧ m'.map List.length = m.map List.length := by
    intro m m' i j e hse
    unfold setEntry at hse
    cases hmi : m[i]? with
    | none => rw [hmi] at hse; cases hse
    | some row =>
      rw [hmi] at hse
      dsimp only at hse
      by_cases hj : j < row.length
      · rw [if_pos hj] at hse
        cases hse
        obtain ⟨hi, hr⟩ := List.getElem?_eq_some_iff.mp hmi
        refine ⟨hi, ?_⟩
        apply List.ext_getElem
        · simp
        · intro q q1 q2
          rw [List.getElem_map, List.getElem_map, List.getElem_set]
          split
          · rename_i e; subst e; simp [hr]
          · rfl
      · rw [if_neg hj] at hse; cases hse
  have inner : ∀ (as : List (Str × Nat)) (i : Nat) (e : SymExpr K) (m m' : List (List (SymExpr K))),
      as.foldlM (fun m aj => do
        let t ← extractAds (K := K) s.o.net aj.1
        match t with
        | .sym t => setEntry m i aj.2 (e.deriv t)
        | _ => .error .ValueError) m = .ok m' → (as ≠ [] → i < m.length) ∧ m'.map List.length = m.map List.length := by
    intro as
    induction as with
    | nil =>
      intro i e m m' hf
      rw [List.foldlM_nil, pure_ok] at hf
      subst hf
      exact ⟨fun h => absurd rfl h, rfl⟩
    | cons aj as ih =>
      intro i e m m' hf
      rw [List.foldlM_cons, bind_ok] at hf
      obtain ⟨m1, hf1, hf2⟩ := hf
      rw [bind_ok] at hf1
      obtain ⟨t, ht, hf1⟩ := hf1
      cases t with
      | sym t =>
        obtain ⟨b1, b2⟩ := shape _ _ _ _ _ hf1
        obtain ⟨c1, c2⟩ := ih i e m1 m' hf2
        exact ⟨fun _ => b1, c2.trans b2⟩
      | _ => cases hf1
  have outer : ∀ (es : List (SymExpr K × Nat)) (m m' : List (List (SymExpr K))),
      es.foldlM (fun m ei => s.o.net.ads.zipIdx.foldlM (fun m aj => do
        let t ← extractAds (K := K) s.o.net aj.1
        match t with
        | .sym t => setEntry m ei.2 aj.2 (ei.1.deriv t)
        | _ => .error .ValueError) m) m = .ok m' →
      (s.o.net.ads ≠ [] → ∀ ei ∈ es, ei.2 < m.length) ∧ m'.map List.length = m.map List.length := by
    intro es
    induction es with
    | nil =>
      intro m m' hf
      rw [List.foldlM_nil, pure_ok] at hf
      subst hf
      exact ⟨fun _ _ h => (nomatch h), rfl⟩
    | cons ei es ih =>
      intro m m' hf
      rw [List.foldlM_cons, bind_ok] at hf
      obtain ⟨m1, hf1, hf2⟩ := hf
      obtain ⟨b1, b2⟩ := inner _ _ _ _ _ hf1
      obtain ⟨c1, c2⟩ := ih m1 m' hf2
      refine ⟨fun hne x hx => ?_, c2.trans b2⟩
      rcases List.mem_cons.mp hx with rfl | hx
      · exact b1 (by simpa using hne)
      · have := c1 hne x hx
        have hlen := congrArg List.length b2
        simp only [List.length_map] at hlen
        omega
  obtain ⟨o1, o2⟩ := outer _ _ _ hm
  have hml : m.length = 2 := by simpa using congrArg List.length o2
  -- not more than two
  have hle : s.o.net.ads.length ≤ 2 := by
    by_contra hgt
    have hne : s.o.net.ads ≠ [] := by intro e; simp [e] at hgt
    have h3 : 2 < es.zipIdx.length := by simp; omega
    have := o1 hne (es.zipIdx[2]) (List.getElem_mem h3)
    simp at this
  -- the first row is too short
  have hrow : ∃ row, m[0]? = some row ∧ row.length = s.o.net.ads.length := by
    have h0 : 0 < m.length := by omega
    refine ⟨m[0], List.getElem?_eq_getElem h0, ?_⟩
    have := congrArg (fun l => l[0]?) o2
    simp only [List.getElem?_map, List.getElem?_eq_getElem h0] at this
    simpa [hl] using this
  obtain ⟨row, r1, r2⟩ := hrow
  obtain ⟨j1, hJ⟩ := mapM_ok_inv hJ
  have e0 := hJ 0 (by simp; omega) (by rw [j1]; simp; omega)
  obtain ⟨j2, hr⟩ := mapM_ok_inv e0
  have e1 := hr s.o.net.ads.length (by simp; omega) (by rw [j2]; simp; omega)
  simp only [List.getElem_range, r1, List.getElem?_eq_none (Nat.le_of_eq r2)] at e1
  cases e1

example : (do jacobianBySym exExp (← prepare ⟨exDissMF, none, none, some [0], some [1], 1, 1, 1⟩) [1 / 2]) = .error .IndexError := by
  decide +kernel

/-- With two adsorbates the matrix is returned. -/
example : (do jacobianBySym exExp (← prepare exIsoSym) [1 / 2, 1 / 5]) = .ok [[-1 / 2, 0], [0, -1 / 2]] := by decide +kernel

/-- CO oxidation over the reals meets the hypotheses. -/
noncomputable def exSymR : SymSolver ℝ := ⟨exMFR, none, none, some [1, 2, 3], some [-1, 1, 2], kBeV, heV, 500⟩
theorem exSymR_given : SymGiven exSymR (fun _ => 1) exPR (fun _ => 0) [1, 2, 3] [-1, 1, 2] := by
  refine ⟨exMFR_ready, exMF_clean, by decide, by decide, by decide, by decide, rfl, rfl, ?_, heV_pos.ne'⟩
  exact mul_ne_zero kBeV_pos.ne' (by norm_num [exSymR])
example : exSymR.o.net.ads.length = 2 := by decide
example : ∃ kf kr, KGiven Real.exp exSymR [1, 2, 3] [-1, 1, 2] kf kr := kGiven_exists Real.exp exSymR_given

end Verif
