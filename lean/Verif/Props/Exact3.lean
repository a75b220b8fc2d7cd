import Verif.Props.Rates
import Verif.Props.Thermo
/-
C15, C21 and C22 without restrictions on coefficients and repeated reactions: what the code computes in all cases, and exactly when it
is what is meant.
-/
namespace Verif
open Dict

/-! ## C15 -/

/-- **C15** The entropy correction of a formula does not depend on its coefficient. -/
theorem C15_entropy_once (P : Dict Str ℝ) (T : ℝ) (p : Option ℝ) (f : Spec.Formula) (h : f.ok = true) :
    entropyCorrection P T p f.text = entropyCorrection P T p f.speciesSite := by
  have h1 : chemFormula f.text = .ok (ofSpec f) := chemFormula_ofSpec h
  have h2 : chemFormula f.speciesSite = .ok (ofSpec { f with coef := none }) :=
    chemFormula_ofSpec (f := { f with coef := none }) h
  unfold entropyCorrection
  rw [h1, h2]
  rfl

/-- **C15** The Shomate correction of a formula is that of the species if no coefficient is written, and zero otherwise. -/
theorem C15_shomate_written (T : ℝ) (f : Spec.Formula) (h : f.ok = true) :
    shomateCorrection T f.text = if f.coef = none then shomateCorrection T f.speciesSite else .ok 0 := by
  cases hc : f.coef with
  | none =>
    have : f.text = f.speciesSite := by
      unfold Spec.Formula.text
      rw [hc]
      rfl
    rw [if_pos rfl, this]
  | some n =>
    rw [if_neg (by simp)]
    have : f.text = Nat.toDigits 10 n ++ f.speciesSite := by
      unfold Spec.Formula.text
      rw [hc]
      rfl
    have h1 := chemFormula_ofSpec h
    rw [this] at h1 ⊢
    exact C15_shomate_coefficient_ignored T n _ _ h1

theorem stateDelta_spec {corr : Str → Py ℝ} {c : Str → ℝ} (hc : Agrees c corr) {s : Spec.State} {d : ℝ}
    (h : stateDelta corr (s.map ofSpec) 0 = .ok d) :
    d = (s.map fun f => c f.text).sum ∧ ∀ f ∈ s, ∃ v, corr f.text = .ok v := by
  constructor
  · rw [stateDelta_ok hc h, zero_add]
    unfold specDelta
    rw [List.map_map]
    rfl
  · have key : ∀ (fs : List Formula) (acc d : ℝ), stateDelta corr fs acc = .ok d → ∀ f ∈ fs, ∃ v, corr f.text = .ok v := by
      intro fs
      induction fs with
      | nil => intro _ _ _ f hf; exact absurd hf (by simp)
      | cons g fs ih =>
        intro acc d h f hf
        simp only [stateDelta, bind_ok] at h
        obtain ⟨v, hv, h⟩ := h
        rcases List.mem_cons.mp hf with rfl | hf
        · exact ⟨v, hv⟩
        · exact ih _ _ h f hf
    intro f hf
    exact key _ _ _ h (ofSpec f) (List.mem_map_of_mem hf)

/-- **C15** The entropy correction of every state counts every formula once, whatever its coefficient; so it is the intended
sum exactly if the corrections of the further molecules add up to zero. -/
theorem C15_entropy_state (P : Dict Str ℝ) (T : ℝ) (s : Spec.State) (h : s.ok = true) (c : Str → ℝ)
    (hc : Agrees c (entropyCorrection P T none)) (d : ℝ) (hd : stateDelta (entropyCorrection P T none) (s.map ofSpec) 0 = .ok d) :
    d = (s.map fun f => c f.speciesSite).sum ∧
    (d = (s.map fun f => (f.coefficient : ℝ) * c f.speciesSite).sum ↔ (s.map fun f => ((f.coefficient : ℝ) - 1) * c f.speciesSite).sum = 0) := by
  obtain ⟨h1, h2⟩ := stateDelta_spec hc hd
  have hok : ∀ f ∈ s, f.ok = true := fun f hf => by
    unfold Spec.State.ok at h
    rw [Bool.and_eq_true] at h
    exact List.all_eq_true.mp h.2 f hf
  have h3 : (s.map fun f => c f.text) = s.map fun f => c f.speciesSite := by
    apply List.map_congr_left
    intro f hf
    obtain ⟨v, hv⟩ := h2 f hf
    rw [hc _ _ hv, hc _ _ (C15_entropy_once P T none f (hok f hf) ▸ hv)]
  have h4 : (s.map fun f => (f.coefficient : ℝ) * c f.speciesSite).sum =
      (s.map fun f => c f.speciesSite).sum + (s.map fun f => ((f.coefficient : ℝ) - 1) * c f.speciesSite).sum := by
    rw [← List.sum_map_add]
    congr 1
    apply List.map_congr_left
    intro f _
    ring
  rw [h3] at h1
  refine ⟨h1, ?_⟩
  rw [h4, h1]
  constructor
  · intro h; linarith
  · intro h; linarith

/-- **C15** The Shomate correction of every state is the sum over the formulas written without a coefficient. -/
theorem C15_shomate_state (T : ℝ) (s : Spec.State) (h : s.ok = true) (c : Str → ℝ)
    (hc : Agrees c (shomateCorrection T)) (d : ℝ) (hd : stateDelta (shomateCorrection T) (s.map ofSpec) 0 = .ok d) :
    d = ((s.filter fun f => f.coef = none).map fun f => c f.speciesSite).sum := by
  obtain ⟨h1, h2⟩ := stateDelta_spec hc hd
  have hok : ∀ f ∈ s, f.ok = true := fun f hf => by
    unfold Spec.State.ok at h
    rw [Bool.and_eq_true] at h
    exact List.all_eq_true.mp h.2 f hf
  rw [h1]
  clear h1 hd h
  induction s with
  | nil => rfl
  | cons f s ih =>
    have ih' := ih (fun g hg => h2 g (by simp [hg])) fun g hg => hok g (by simp [hg])
    obtain ⟨v, hv⟩ := h2 f (by simp)
    have hw := C15_shomate_written T f (hok f (by simp))
    rw [List.map_cons, List.sum_cons, ih', hc _ _ hv]
    by_cases hn : f.coef = none
    · rw [List.filter_cons_of_pos (by simpa using hn), List.map_cons, List.sum_cons]
      rw [if_pos hn, hv] at hw
      rw [hc _ _ hw.symm]
    · rw [List.filter_cons_of_neg (by simpa using hn)]
      rw [if_neg hn, hv] at hw
      rw [Except.ok.inj hw, zero_add]

/-- Two molecules of carbon monoxide and a free site. -/
def exPair : Spec.State := [⟨some 2, .mol [.elem 'C' none, .elem 'O' none], none, str! "g"⟩, ⟨none, .emptySite, none, str! "s"⟩]

example : exPair.ok = true ∧ ∃ d, stateDelta (shomateCorrection 1000) (exPair.map ofSpec) 0 = .ok d := by
  refine ⟨by decide, 0 + 0 + 0, ?_⟩
  have h1 : shomateCorrection 1000 (ofSpec ⟨some 2, .mol [.elem 'C' none, .elem 'O' none], none, str! "g"⟩).text = .ok 0 :=
    C15_shomate_written 1000 ⟨some 2, .mol [.elem 'C' none, .elem 'O' none], none, str! "g"⟩ (by decide)
  have h2 : shomateCorrection 1000 (ofSpec ⟨none, .emptySite, none, str! "s"⟩).text = .ok 0 := by
    have hf : chemFormula (ofSpec ⟨none, .emptySite, none, str! "s"⟩).text = .ok (ofSpec ⟨none, .emptySite, none, str! "s"⟩) :=
      chemFormula_ofSpec (f := ⟨none, .emptySite, none, str! "s"⟩) (by decide)
    unfold shomateCorrection
    rw [hf]
    dsimp only
    exact if_pos (by decide)
  show (shomateCorrection 1000 _ >>= _) = _
  rw [h1]
  simp only [stateDelta, List.map_cons, List.map_nil, bind, Except.bind, h2]

/-! ## C67 -/

/-- **C67** At a positive temperature and pressure the entropy correction of a gas of the data base has a value exactly if
a linear molecule has a rotational temperature below `0.3 T`; otherwise the error is that of the missing attribute. -/
theorem C67_iff {name : Str} {f : Formula} {sigma m : ℚ} {rot vib : List ℚ} (h : InDatabase name f sigma rot vib m)
    (P : Dict Str ℝ) (T p : ℝ) (hT : 0 < T) (hp : 0 < p) :
    ((∃ g, entropyCorrection P T (some p) name = .ok g) ↔ (rot.length = 1 → ∀ t ∈ rot, (t : ℝ) < 0.3 * T)) ∧
    (¬ (rot.length = 1 → ∀ t ∈ rot, (t : ℝ) < 0.3 * T) → entropyCorrection P T (some p) name = .error .AttributeError) := by
  have hbad : ¬ (rot.length = 1 → ∀ t ∈ rot, (t : ℝ) < 0.3 * T) → entropyCorrection P T (some p) name = .error .AttributeError := by
    intro hn
    simp only [Classical.not_imp, not_forall, not_lt] at hn
    obtain ⟨hl, t, ht, hle⟩ := hn
    obtain ⟨x, rfl⟩ := List.length_eq_one_iff.mp hl
    have : t = x := by simpa using ht
    subst this
    apply entropyCorrection_error h P T p hT hp.ne'
    unfold rotationQ
    simp only [List.map_cons, List.map_nil]
    have h1 : (0.3 : ℝ) ≤ (t : ℝ) / T := by rw [le_div_iff₀ hT]; exact hle
    rw [if_neg (by rw [not_le]; linarith), if_pos h1]
  refine ⟨⟨fun ⟨g, hg⟩ => ?_, fun hl => C67_defined_partial h P T p hT hp hl⟩, hbad⟩
  by_contra hn
  rw [hbad hn] at hg
  cases hg

/-- Hydrogen at room temperature has a value, at 290 K it has none. -/
example (P : Dict Str ℝ) : (∃ g, entropyCorrection P 298 (some 1) (str! "H2_g") = .ok g) ∧
    entropyCorrection P 290 (some 1) (str! "H2_g") = .error .AttributeError := by
  refine ⟨(C67_iff db_H2 P 298 1 (by norm_num) one_pos).1.mpr fun _ t ht => ?_, (C67_iff db_H2 P 290 1 (by norm_num) one_pos).2 fun hn => ?_⟩
  · simp only [List.mem_singleton] at ht; subst ht; push_cast; norm_num
  · have := hn rfl (175 / 2) (by simp)
    push_cast at this
    norm_num at this

/-! ## C21 -/

theorem pressureProduct_ok (P : Dict Str ℝ) (gs : List Formula) :
    (∀ p : Str → ℝ, (∀ g ∈ gs, get? P g.text = some (p g.text)) → pressureProduct P gs = .ok (gs.map fun g => p g.text).prod) ∧
    (∀ g ∈ gs, get? P g.text = none → pressureProduct P gs = .error .KeyError) := by
  constructor
  · intro p h
    have : gs.mapM (fun g => dictGet P g.text) = .ok (gs.map fun g => p g.text) :=
      mapM_ok fun g hg => by unfold dictGet; rw [h g hg]
    unfold pressureProduct
    rw [this]
    show (match gs.map fun g => p g.text with | [] => pure 1 | p :: ps => pure (ps.foldl (· * ·) p)) = _
    cases gs with
    | nil => rfl
    | cons g gs =>
      rw [List.map_cons]
      dsimp only
      rw [foldl_mul_prod, List.prod_cons]
      rfl
  · intro g hg hn
    have : gs.mapM (fun g => dictGet P g.text) = .error .KeyError := by
      induction gs with
      | nil => exact absurd hg (by simp)
      | cons g' gs ih =>
        rw [List.mapM_cons]
        cases he : get? P g'.text with
        | none =>
          have : dictGet P g'.text = .error .KeyError := by unfold dictGet; rw [he]
          rw [this]
          rfl
        | some v =>
          have : dictGet P g'.text = .ok v := by unfold dictGet; rw [he]
          rw [this]
          rcases List.mem_cons.mp hg with rfl | hg
          · rw [hn] at he; exact nomatch he
          · show (gs.mapM (fun g => dictGet P g.text) >>= _) = _
            rw [ih hg]
            rfl
    unfold pressureProduct
    rw [this]
    rfl

/-- **C21** By transition state theory, with pressures: there is a rate exactly if the pressures have an entry under the
text of every gas of the end states as it is written, coefficient included; then the rates are the constants times the product of these
entries, each once. Otherwise the lookup raises. -/
theorem C21_written (o : RateOwner) (rel : RelDict ℝ) (rxn : Str) (kf kr : ℝ) (states : List (List Formula)) (is fs : List Formula)
    (hs : eqnFormulas rxn = .ok states) (his : states.head? = some is) (hfs : states.getLast? = some fs)
    (hk : ratesTST o rel false rxn = .ok (kf, kr)) :
    (∀ p : Str → ℝ, (∀ g ∈ is ++ fs, g.type = .gas → get? o.pressures g.text = some (p g.text)) →
      ratesTST o rel true rxn = .ok (((is.filter (·.type = .gas)).map fun g => p g.text).prod * kf,
        ((fs.filter (·.type = .gas)).map fun g => p g.text).prod * kr)) ∧
    ((∃ g ∈ is ++ fs, g.type = .gas ∧ get? o.pressures g.text = none) → ratesTST o rel true rxn = .error .KeyError) := by
  have hads : adsorptionGases rxn = .ok (is.filter (·.type = .gas)) := by
    unfold adsorptionGases; rw [hs]; simp only [bind, Except.bind, his]; rfl
  have hdes : desorptionGases rxn = .ok (fs.filter (·.type = .gas)) := by
    unfold desorptionGases; rw [hs]; simp only [bind, Except.bind, hfs]; rfl
  obtain ⟨v, hv, e1, e2⟩ := ratesTST_ok.mp hk
  dsimp only at e1 e2
  have hu : ratesTST o rel true rxn = (do
      let p ← pressureProduct o.pressures (is.filter (·.type = .gas))
      let p' ← pressureProduct o.pressures (fs.filter (·.type = .gas))
      pure (p * kf, p' * kr)) := by
    unfold ratesTST
    rw [hv, hads, hdes]
    show (kTST v.gaf o.T >>= _) = _
    rw [e1]
    show (kTST v.gar o.T >>= _) = _
    rw [e2]
    rfl
  have mem : ∀ {l : List Formula} {g : Formula}, g ∈ l.filter (·.type = .gas) ↔ g ∈ l ∧ g.type = .gas := by
    intro l g
    simp
  constructor
  · intro p hp
    rw [hu, (pressureProduct_ok _ _).1 p fun g hg => hp g (by simp [(mem.mp hg).1]) (mem.mp hg).2,
      (pressureProduct_ok _ _).1 p fun g hg => hp g (by simp [(mem.mp hg).1]) (mem.mp hg).2]
    rfl
  · rintro ⟨g, hg, hgas, hn⟩
    rw [hu]
    by_cases hi : ∃ g ∈ is.filter (·.type = .gas), get? o.pressures g.text = none
    · obtain ⟨g, hg, hn⟩ := hi
      rw [(pressureProduct_ok _ _).2 g hg hn]
      rfl
    · have hall : ∀ g ∈ is.filter (·.type = .gas), get? o.pressures g.text = some ((get? o.pressures g.text).getD 0) := by
        intro g hg
        cases he : get? o.pressures g.text with
        | none => exact absurd ⟨g, hg, he⟩ hi
        | some v => rfl
      rw [(pressureProduct_ok _ _).1 (fun t => (get? o.pressures t).getD 0) hall]
      rcases List.mem_append.mp hg with h | h
      · exact absurd ⟨g, mem.mpr ⟨h, hgas⟩, hn⟩ hi
      · show (pressureProduct o.pressures (fs.filter (·.type = .gas)) >>= _) = _
        rw [(pressureProduct_ok _ _).2 g (mem.mpr ⟨h, hgas⟩) hn]
        rfl

/-! ## C22 -/

theorem idxOf_first {l : List Str} {r : Str} {i : Nat} (h : i < l.idxOf r) : l[i]? ≠ some r := by
  induction l generalizing i with
  | nil => simp
  | cons x l ih =>
    by_cases hx : x = r
    · rw [hx, List.idxOf_cons_self] at h; omega
    · rw [List.idxOf_cons_ne _ hx] at h
      cases i with
      | zero => simpa using hx
      | succ i => rw [List.getElem?_cons_succ]; exact ih (by omega)

/-- **C22** For every list of reactions, also with repetitions: the constants at a place are those of the energies at the
first place where the same expression stands. -/
theorem C22_first (o : RateOwner) (gaf gar dg kfs krs : List ℝ)
    (h : rateConstants o .TST ⟨some gaf, some gar, some dg⟩ = .ok (kfs, krs)) (i j : Nat) (r : Str)
    (hi : o.rxns[i]? = some r) (hj : o.rxns[j]? = some r) (hfirst : ∀ l < j, o.rxns[l]? ≠ some r) :
    ∃ a b kf kr, gaf[j]? = some a ∧ gar[j]? = some b ∧ kfs[i]? = some kf ∧
      krs[i]? = some kr ∧ kTST a o.T = .ok kf ∧ kTST b o.T = .ok kr := by
  unfold rateConstants at h
  rw [guard_ok] at h
  simp only [bind_ok, pure_ok, Prod.mk.injEq] at h
  obtain ⟨-, l, hl, rfl, rfl⟩ := h
  obtain ⟨m1, m2⟩ := mapM_ok_inv hl
  obtain ⟨hi', rfl⟩ := List.getElem?_eq_some_iff.mp hi
  have hr := m2 i hi' (by omega)
  obtain ⟨v, hv, e1, e2⟩ := ratesTST_ok.mp hr
  obtain ⟨-, a1, a2, a3, g1, g2, g3, f1, f2, f3⟩ := relOf_ok.mp hv
  cases g1; cases g2; cases g3
  have hx : o.rxns.idxOf o.rxns[i] = j := by
    have hlt : o.rxns.idxOf o.rxns[i] < o.rxns.length := List.idxOf_lt_length_iff.mpr (List.getElem_mem _)
    have hat : o.rxns[o.rxns.idxOf o.rxns[i]]? = some o.rxns[i] := by
      rw [List.getElem?_eq_getElem hlt]; simp
    rcases Nat.lt_trichotomy (o.rxns.idxOf o.rxns[i]) j with hlt' | he | hgt
    · exact absurd hat (hfirst _ hlt')
    · exact he
    · exfalso
      exact idxOf_first hgt hj
  rw [hx] at f1 f2
  have hll : i < l.length := by omega
  exact ⟨v.gaf, v.gar, l[i].1, l[i].2, f1, f2, by simp [hll], by simp [hll], e1, e2⟩

theorem kTST_inj {a b T k : ℝ} (hT : T ≠ 0) (h1 : kTST a T = .ok k) (h2 : kTST b T = .ok k) : a = b := by
  have hk := kBeV_pos
  have hh := heV_pos
  have h := ((kTST_ok hT).mp h1).symm.trans ((kTST_ok hT).mp h2)
  have hc : kBeV * T / heV ≠ 0 := by positivity
  have := Real.exp_injective (mul_left_cancel₀ hc h)
  have hd : kBeV * T ≠ 0 := by positivity
  rw [div_left_inj' hd] at this
  linarith

/-- **C22** Every place has the constants of its own barriers exactly if repeated expressions have the same barriers as their
first place. -/
theorem C22_iff (o : RateOwner) (hT : o.T ≠ 0) (gaf gar dg kfs krs : List ℝ)
    (h : rateConstants o .TST ⟨some gaf, some gar, some dg⟩ = .ok (kfs, krs)) :
    (∀ i < o.rxns.length, ∃ a b kf kr, gaf[i]? = some a ∧ gar[i]? = some b ∧ kfs[i]? = some kf ∧ krs[i]? = some kr ∧
      kTST a o.T = .ok kf ∧ kTST b o.T = .ok kr) ↔
    ∀ (i j : Nat) r, o.rxns[i]? = some r → o.rxns[j]? = some r → gaf[i]? = gaf[j]? ∧ gar[i]? = gar[j]? := by
  have first : ∀ (i : Nat) r, o.rxns[i]? = some r → o.rxns[o.rxns.idxOf r]? = some r ∧ ∀ l < o.rxns.idxOf r, o.rxns[l]? ≠ some r := by
    intro i r hi
    have hlt : o.rxns.idxOf r < o.rxns.length := List.idxOf_lt_length_iff.mpr (List.mem_of_getElem? hi)
    exact ⟨by rw [List.getElem?_eq_getElem hlt]; simp, fun l hl => idxOf_first hl⟩
  constructor
  · intro hall
    have key : ∀ (i : Nat) r, o.rxns[i]? = some r → gaf[i]? = gaf[o.rxns.idxOf r]? ∧ gar[i]? = gar[o.rxns.idxOf r]? := by
      intro i r hi
      obtain ⟨f1, f2⟩ := first i r hi
      obtain ⟨a, b, kf, kr, h1, h2, h3, h4, h5, h6⟩ := C22_first o gaf gar dg kfs krs h i _ r hi f1 f2
      obtain ⟨a', b', kf', kr', g1, g2, g3, g4, g5, g6⟩ := hall i (List.getElem?_eq_some_iff.mp hi).1
      rw [h3] at g3; cases g3
      rw [h4] at g4; cases g4
      rw [h1, g1, h2, g2, kTST_inj hT h5 g5, kTST_inj hT h6 g6]
      exact ⟨rfl, rfl⟩
    intro i j r hi hj
    rw [(key i r hi).1, (key i r hi).2, (key j r hj).1, (key j r hj).2]
    exact ⟨rfl, rfl⟩
  · intro hall i hi
    have hir : o.rxns[i]? = some o.rxns[i] := List.getElem?_eq_getElem hi
    obtain ⟨f1, f2⟩ := first i _ hir
    obtain ⟨a, b, kf, kr, h1, h2, h3, h4, h5, h6⟩ := C22_first o gaf gar dg kfs krs h i _ _ hir f1 f2
    obtain ⟨e1, e2⟩ := hall i _ _ hir f1
    exact ⟨a, b, kf, kr, by rw [e1, h1], by rw [e2, h2], h3, h4, h5, h6⟩

/-- The two copies of the refutation: constants exist, the barriers differ. -/
example : ¬ ∀ (i j : Nat) r, ([str! "CO_s + O_s <-> CO-O_2s -> CO2_g + 2*_s", str! "CO_s + O_s <-> CO-O_2s -> CO2_g + 2*_s"] : List Str)[i]? = some r →
    ([str! "CO_s + O_s <-> CO-O_2s -> CO2_g + 2*_s", str! "CO_s + O_s <-> CO-O_2s -> CO2_g + 2*_s"] : List Str)[j]? = some r →
    ([0, 1] : List ℝ)[i]? = ([0, 1] : List ℝ)[j]? ∧ ([0, 1] : List ℝ)[i]? = ([0, 1] : List ℝ)[j]? := by
  intro h
  have := (h 0 1 _ rfl rfl).1
  simp at this

/-! ### The theorems at these cases -/

example (P : Dict Str ℝ) (T : ℝ) := C15_entropy_once P T none ⟨some 2, .mol [.elem 'C' none, .elem 'O' none], none, str! "g"⟩ (by decide)

example (r kf kr : List ℝ) (h : rateConstants ⟨[str! "A_s -> B_s", str! "A_s -> B_s"], 450, [], 0, 0, false⟩ .TST ⟨some [0, 1], some [0, 1], some r⟩ = .ok (kf, kr)) :=
  C22_first ⟨[str! "A_s -> B_s", str! "A_s -> B_s"], 450, [], 0, 0, false⟩ [0, 1] [0, 1] r kf kr h 1 0 (str! "A_s -> B_s") rfl rfl (by simp)

end Verif
