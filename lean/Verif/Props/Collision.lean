import Verif.Props.DeDonder
import Verif.Props.Fills
import Verif.Props.LatticeMixing
import Verif.Props.SteadyPositive
import Verif.Props.Invariance
import Verif.Props.ChemObjects
/- C127: collision theory and equilibrium. -/
namespace Verif
open Dict

/-! ### specification -/

/-- Specification: the entropy term that the library has for a gas at one atmosphere. It is zero for everything else. -/
noncomputable def gasTerm (T : ℝ) (x : Str) : ℝ :=
  match entropyCorrection [] T (some P0) x with
  | .ok c => c
  | .error _ => 0

/-- Specification: the energies with the entropy terms of the gases added. -/
noncomputable def gasEnergy (T : ℝ) (G : Str → ℝ) (x : Str) : ℝ := G x + gasTerm T x

/-- Specification: the two ends of a reaction have at most one gas between them, and no star in its name. -/
def OneGas (states : List (List Formula)) : Prop :=
  ∀ is fs, states.head? = some is → states.getLast? = some fs → ((is ++ fs).filter (·.type = .gas)).length ≤ 1 ∧
    ∀ f ∈ is ++ fs, f.type = .gas → '*' ∉ f.speciesSite

/-- Specification: the reverse constants of the reactions that begin with a gas stay below the limit `kB T / h`. -/
def BelowLimit (rxns : List Str) (T : ℝ) (kr : List ℝ) : Prop :=
  ∀ i (hi : i < rxns.length) states is b, eqnFormulas rxns[i] = .ok states → states.head? = some is →
    (∃ f ∈ is, f.type = .gas) → kr[i]? = some b → b < kBeV * T / heV

/-! ### helpers -/

theorem eqnFormulas_text {s : Str} {fss : List (List Formula)} (h : eqnFormulas s = .ok fss) :
    ∀ fs ∈ fss, ∀ f ∈ fs, chemFormula f.text = .ok f := by
  unfold eqnFormulas at h
  cases hs : eqnStates s with
  | error e => rw [hs] at h; cases h
  | ok l =>
    rw [hs] at h
    intro fs hfs f hf
    obtain ⟨t, -, ht⟩ := (mapM_ok_mem (show l.mapM stateFormulas = .ok fss from h)).1 fs hfs
    obtain ⟨u, -, hu⟩ := (mapM_ok_mem ht).1 f hf
    rw [chemFormula_text hu]
    exact hu

/-- The correction of a formula of the network is that of its name. -/
theorem entropyCorrection_name {f : Formula} {ns : Str} (hf : chemFormula f.text = .ok f) (g : Good f ns) (P : Dict Str ℝ) (T p : ℝ) :
    entropyCorrection P T (some p) f.text = entropyCorrection [] T (some p) f.speciesSite := by
  unfold entropyCorrection
  rw [hf, g.reparse]
  rfl

theorem sum_gas_nil {χ : Str → ℝ} {fs : List Formula} (h : fs.find? (·.type = .gas) = none) :
    (fs.map fun f => if f.type = .gas then (f.stoich : ℝ) * χ f.speciesSite else 0).sum = 0 := by
  apply sum_map_zero
  intro f hf
  rw [List.find?_eq_none] at h
  rw [if_neg (by simpa using h f hf)]

theorem sum_gas_one {χ : Str → ℝ} {fs : List Formula} {f : Formula} (h : fs.find? (·.type = .gas) = some f)
    (h1 : (fs.filter (·.type = .gas)).length ≤ 1) :
    (fs.map fun f => if f.type = .gas then (f.stoich : ℝ) * χ f.speciesSite else 0).sum = (f.stoich : ℝ) * χ f.speciesSite := by
  induction fs with
  | nil => simp at h
  | cons g fs ih =>
    rw [List.map_cons, List.sum_cons]
    by_cases hg : g.type = .gas
    · rw [List.find?_cons_of_pos (by simpa using hg)] at h
      cases h
      rw [if_pos hg, sum_gas_nil, add_zero]
      rw [List.filter_cons_of_pos (by simpa using hg), List.length_cons] at h1
      have : fs.filter (·.type = .gas) = [] := List.eq_nil_of_length_eq_zero (by omega)
      rw [List.find?_eq_none]
      intro x hx
      rw [List.filter_eq_nil_iff] at this
      exact this x hx
    · rw [List.find?_cons_of_neg (by simpa using hg)] at h
      rw [List.filter_cons_of_neg (by simpa using hg)] at h1
      rw [if_neg hg, zero_add, ih h h1]

/-- The rate constants of one reaction with at most one gas. -/
theorem ratesCT_ratio {o : RateOwner} (hT : 0 < o.T) {rel : RelDict ℝ} {inclP : Bool} {rxn : Str} {rf rr : ℝ} {v : Rel1 ℝ}
    {states : List (List Formula)} {is fs : List Formula} (hv : relOf o.rxns rel rxn = .ok v) (hc : v.gaf - v.gar = v.dg)
    (hs : eqnFormulas rxn = .ok states) (his : states.head? = some is) (hfs : states.getLast? = some fs)
    (h1 : ((is ++ fs).filter (·.type = .gas)).length ≤ 1) (χ : Str → ℝ)
    (hχ : ∀ f ∈ is ++ fs, f.type = .gas → ∀ p c, pressureCT o inclP f.text = .ok p →
      entropyCorrection o.pressures o.T (some p) f.text = .ok c → χ f.speciesSite = c)
    (h : ratesCT o rel inclP rxn = .ok (rf, rr)) :
    let D := v.dg + (fs.map fun f => if f.type = .gas then (f.stoich : ℝ) * χ f.speciesSite else 0).sum
      - (is.map fun f => if f.type = .gas then (f.stoich : ℝ) * χ f.speciesSite else 0).sum
    0 < rf ∧ 0 < rr ∧ Real.exp (-D / (kBeV * o.T)) ≤ rf / rr ∧
      (rr < kBeV * o.T / heV ∨ is.find? (·.type = .gas) = none → rf / rr = Real.exp (-D / (kBeV * o.T))) ∧
      (rf / rr ≠ Real.exp (-D / (kBeV * o.T)) → rr = kBeV * o.T / heV) := by
  intro D
  have hB := kBeV_pos
  have hH := heV_pos
  have enough : 0 < rf → 0 < rr → rf / rr = Real.exp (-D / (kBeV * o.T)) → 0 < rf ∧ 0 < rr ∧ Real.exp (-D / (kBeV * o.T)) ≤ rf / rr ∧
      (rr < kBeV * o.T / heV ∨ is.find? (·.type = .gas) = none → rf / rr = Real.exp (-D / (kBeV * o.T))) ∧
      (rf / rr ≠ Real.exp (-D / (kBeV * o.T)) → rr = kBeV * o.T / heV) :=
    fun a b c => ⟨a, b, c.ge, fun _ => c, fun n => absurd c n⟩
  have both : ∀ {a b : ℝ}, kTST a o.T = .ok rf → kTST b o.T = .ok rr → a - b = D →
      0 < rf ∧ 0 < rr ∧ rf / rr = Real.exp (-D / (kBeV * o.T)) := by
    intro a b ha hb hab
    rw [(kTST_ok hT.ne').mp ha, (kTST_ok hT.ne').mp hb]
    refine ⟨by positivity, by positivity, ?_⟩
    rw [mul_div_mul_left _ _ (by positivity), ← Real.exp_sub, ← hab]
    congr 1
    ring
  rw [List.filter_append, List.length_append] at h1
  cases hi : is.find? (·.type = .gas) with
  | some f =>
    have hfi := List.mem_of_find?_eq_some hi
    have hfg : f.type = .gas := by simpa using List.find?_some hi
    have hlen : 1 ≤ (is.filter (·.type = .gas)).length :=
      List.length_pos_of_mem (List.mem_filter.mpr ⟨hfi, by simpa using hfg⟩)
    have hfn : fs.find? (·.type = .gas) = none := by
      have : fs.filter (·.type = .gas) = [] := List.eq_nil_of_length_eq_zero (by omega)
      rw [List.find?_eq_none]
      intro x hx
      rw [List.filter_eq_nil_iff] at this
      exact this x hx
    obtain ⟨p, corr, hp, hcorr, q1, q2, q3, q4⟩ := C20_adsorption o rel inclP rxn rf rr states is f v hT hs his hi hv h
    have hD : v.dg - f.stoich * corr = D := by
      dsimp only [D]
      rw [sum_gas_nil hfn, sum_gas_one hi (by omega), hχ f (by simp [hfi]) hfg p corr hp hcorr]
      ring
    rw [hD] at q4
    refine ⟨q1, q2, ?_, ?_, ?_⟩
    · rcases q4 with q | ⟨-, q⟩
      · exact q.ge
      · exact q.le
    · rintro (hl | hl)
      · rcases q4 with q | ⟨q, -⟩
        · exact q
        · exact absurd q hl.ne
      · exact nomatch hl
    · intro hne
      rcases q4 with q | ⟨q, -⟩
      · exact absurd q hne
      · exact q
  | none =>
    rw [hi] at enough
    cases hf : fs.find? (·.type = .gas) with
    | some f =>
      have hfi := List.mem_of_find?_eq_some hf
      have hfg : f.type = .gas := by simpa using List.find?_some hf
      obtain ⟨w, q, corr, hw, hq, hcorr, hrr, hrf⟩ := ratesCT_desorption hs his hfs hi hf h
      rw [hv] at hw; cases hw
      obtain ⟨p1, p2, p3⟩ := both hrf hrr (by
        dsimp only [D]
        rw [sum_gas_nil hi, sum_gas_one hf (by omega), hχ f (by simp [hfi]) hfg q corr hq hcorr, ← hc]
        ring)
      exact enough p1 p2 p3
    | none =>
      have key : kTST v.gaf o.T = .ok rf ∧ kTST v.gar o.T = .ok rr := by
        unfold ratesCT at h
        rw [hv, hs] at h
        simp only [bind, Except.bind, his, hfs, hi, hf] at h
        split at h
        · cases h
        split at h
        · cases h
        rw [(kTST_ok hT.ne').mpr rfl, (kTST_ok hT.ne').mpr rfl] at h ⊢
        cases h
        exact ⟨rfl, rfl⟩
      obtain ⟨p1, p2, p3⟩ := both key.1 key.2 (by
        dsimp only [D]
        rw [sum_gas_nil hi, sum_gas_nil hf, hc]
        ring)
      exact enough p1 p2 p3

/-- The term of everything but gases is zero. -/
theorem gasTerm_key {f : Formula} {ns : Str} (g : Good f ns) (hf : f.type ≠ .gas) (T : ℝ) : gasTerm T (energyKey f) = 0 := by
  have hsite : f.site ≠ ['g'] := by
    intro e
    exact hf (by unfold Formula.type; rw [if_pos e])
  have hty : ∀ f' : Formula, f'.site = f.site → f'.type ≠ .gas := by
    intro f' e h
    unfold Formula.type at h
    rw [e, if_neg hsite] at h
    repeat' split at h
    all_goals cases h
  unfold gasTerm entropyCorrection
  have key : ∃ f', chemFormula (energyKey f) = .ok f' ∧ f'.site = f.site := by
    unfold energyKey
    split
    · have := chemFormula_render (ds := []) (sp := str! "*") (ns := []) (by simp) (by decide) (by decide) (by simp) g.site g.siteNe
      exact ⟨_, this, rfl⟩
    · exact ⟨_, g.reparse, rfl⟩
  obtain ⟨f', e1, e2⟩ := key
  rw [e1]
  simp only [bind, Except.bind]
  rw [if_pos (hty f' e2)]
  rfl

/-- The energies of end states with the terms of the gases. -/
theorem specEnergy_gas (T : ℝ) (G : Str → ℝ) {fs : List Formula} (hgood : ∀ f ∈ fs, ∃ ns, Good f ns)
    (hg : ∀ f ∈ fs, f.type = .gas → '*' ∉ f.speciesSite) :
    specEnergy (gasEnergy T G) fs = specEnergy G fs
      + (fs.map fun f => if f.type = .gas then (f.stoich : ℝ) * gasTerm T f.speciesSite else 0).sum := by
  unfold specEnergy
  rw [← sum_map_add']
  congr 1
  apply List.map_congr_left
  intro f hf
  unfold gasEnergy
  by_cases e : f.type = .gas
  · rw [if_pos e, if_neg (hg f hf e)]; ring
  · obtain ⟨ns, g⟩ := hgood f hf
    have := gasTerm_key g e T
    unfold energyKey at this
    rw [if_neg e, this]; ring

/-- With a correction at some pressure there is one at one atmosphere. -/
theorem entropyCorrection_one {name : Str} {f : Formula} {sigma m : ℚ} {rot vib : List ℚ} (h : InDatabase name f sigma rot vib m)
    {T p c : ℝ} (hT : 0 < T) (hp : 0 < p) (hc : entropyCorrection [] T (some p) name = .ok c) :
    ∃ c0, entropyCorrection [] T (some P0) name = .ok c0 := by
  cases hr : rotationQ T sigma (rot.map (↑)) with
  | error e => rw [entropyCorrection_error h [] T p hT hp.ne' hr] at hc; cases hc
  | ok qr =>
    cases hv : vibrationQ T (vib.map (↑)) with
    | error e => rw [entropyCorrection_error' h [] T p hT hp.ne' hr hv] at hc; cases hc
    | ok qv =>
      rw [entropyCorrection_db h [] T p hT hp.ne' hr hv] at hc
      rw [entropyCorrection_db h [] T P0 hT P0_pos.ne' hr hv]
      generalize (2 * Real.pi * (amu * (m : ℝ)) * kBJ * T / hJ ^ 2) ^ (3 / 2 : ℝ) = w at hc ⊢
      split at hc
      · cases hc
      · rename_i q1
        rw [if_neg]
        · exact ⟨_, rfl⟩
        · push Not at q1 ⊢
          rw [show kBJ * T / p * w * qr * qv = (kBJ * T * w * qr * qv) / p by field_simp] at q1
          rw [show kBJ * T / P0 * w * qr * qv = (kBJ * T * w * qr * qv) / P0 by field_simp]
          have : 0 < kBJ * T * w * qr * qv := by
            have := mul_pos q1 hp
            rwa [div_mul_cancel₀ _ hp.ne'] at this
          exact div_pos this P0_pos

theorem ends_good {s : Str} {states : List (List Formula)} {is fs : List Formula} (h : eqnFormulas s = .ok states)
    (his : states.head? = some is) (hfs : states.getLast? = some fs) :
    ∀ f ∈ is ++ fs, (∃ ns, Good f ns) ∧ chemFormula f.text = .ok f := by
  intro f hf
  rcases List.mem_append.mp hf with x | x
  · have m := List.mem_of_mem_head? (by rw [his]; rfl : is ∈ states.head?)
    exact ⟨eqnFormulas_good h is m f x, eqnFormulas_text h is m f x⟩
  · have m := List.mem_of_getLast? hfs
    exact ⟨eqnFormulas_good h fs m f x, eqnFormulas_text h fs m f x⟩

/-! ## C127 -/

/-- **C127** Rate constants of collision theory from absolute energies: both are positive and their ratio is never below the
exponential of minus the reaction energy over `k T`, where the entropy term of each gas at one atmosphere is added to its energy. It is equal
to it for reactions that do not begin with a gas and for those with a reverse constant below `kB T / h`; otherwise the reverse constant
is just `kB T / h`. Missing: reactions with several gases (`C127_two_gases_refuted`) and gases with a star in their name. -/
theorem C127_constants_partial (E : Dict Str ℝ) (G : Str → ℝ) (hG : Extends G E) (ro : RateOwner) (hT : 0 < ro.T)
    (hg : ∀ x ∈ ro.rxns, ∀ states, eqnFormulas x = .ok states → OneGas states)
    (r : Rel ℝ) (hr : relativeFromAbsolute (some E) ro.rxns = .ok r) (kf kr : List ℝ)
    (hk : rateConstants ro .CT ⟨some r.gaf, some r.gar, some r.dg⟩ = .ok (kf, kr)) :
    ∀ i (hi : i < ro.rxns.length) states is fs, eqnFormulas ro.rxns[i] = .ok states →
      states.head? = some is → states.getLast? = some fs →
      ∃ a b, kf[i]? = some a ∧ kr[i]? = some b ∧ 0 < a ∧ 0 < b ∧
        let K := Real.exp (-(specEnergy (gasEnergy ro.T G) fs - specEnergy (gasEnergy ro.T G) is) / (kBeV * ro.T))
        K ≤ a / b ∧ (b < kBeV * ro.T / heV ∨ (∀ f ∈ is, f.type ≠ .gas) → a / b = K) ∧ (a / b ≠ K → b = kBeV * ro.T / heV) := by
  intro i hi states is fs e1 e2 e3
  unfold rateConstants at hk
  rw [guard_ok] at hk
  obtain ⟨-, hk⟩ := hk
  rw [bind_ok] at hk
  obtain ⟨l, hl, hk⟩ := hk
  rw [pure_ok] at hk
  obtain ⟨rfl, rfl⟩ := Prod.mk.inj hk
  obtain ⟨m1, m2⟩ := mapM_ok_inv hl
  have hlt : i < l.length := by omega
  refine ⟨l[i].1, l[i].2, by simp [hlt], by simp [hlt], ?_⟩
  have hrate := m2 i hi hlt
  obtain ⟨-, -, -, hv⟩ := C12_lists E ro.rxns r hr
  obtain ⟨v, hv, -⟩ := hv i hi
  have hrel := relOf_text hr (List.getElem_mem hi)
  rw [hv] at hrel
  obtain ⟨st', is', fs', g1, g2, g3, hgg, hdg, -⟩ := C12_single_reaction E G hG _ _ hv
  rw [e1] at g1; cases g1
  rw [e2] at g2; cases g2
  rw [e3] at g3; cases g3
  obtain ⟨o1, o2⟩ := hg _ (List.getElem_mem hi) _ e1 is fs e2 e3
  have hgood := ends_good e1 e2 e3
  have key := ratesCT_ratio hT hrel hgg e1 e2 e3 o1 (gasTerm ro.T) ?_ hrate
  · dsimp only at key
    rw [specEnergy_gas ro.T G (fun f hf => (hgood f (List.mem_append_left _ hf)).1) (fun f hf => o2 f (List.mem_append_left _ hf)),
      specEnergy_gas ro.T G (fun f hf => (hgood f (List.mem_append_right _ hf)).1) (fun f hf => o2 f (List.mem_append_right _ hf))]
    rw [hdg] at key
    rw [show ∀ a b c d : ℝ, a + b - (c + d) = a - c + b - d from fun _ _ _ _ => by ring]
    refine ⟨key.1, key.2.1, key.2.2.1, ?_, key.2.2.2.2⟩
    rintro (hb | hb)
    · exact key.2.2.2.1 (Or.inl hb)
    · refine key.2.2.2.1 (Or.inr ?_)
      rw [List.find?_eq_none]
      intro f hf
      simpa using hb f hf
  · intro f hf hfg p c hpp hcc
    obtain ⟨⟨ns, gd⟩, ht⟩ := hgood f hf
    unfold pressureCT at hpp
    rw [if_neg (by simp)] at hpp
    cases hpp
    unfold gasTerm
    rw [← entropyCorrection_name ht gd ro.pressures, hcc]

/-- Constants of collision theory below the limit fit the energies with the entropy terms of the gases. -/
theorem fit_CT (E : Dict Str ℝ) (G : Str → ℝ) (hG : Extends G E) (ro : RateOwner) (hT : 0 < ro.T)
    (hg : ∀ x ∈ ro.rxns, ∀ states, eqnFormulas x = .ok states → OneGas states)
    (r : Rel ℝ) (hr : relativeFromAbsolute (some E) ro.rxns = .ok r) (kf kr : List ℝ)
    (hk : rateConstants ro .CT ⟨some r.gaf, some r.gar, some r.dg⟩ = .ok (kf, kr)) (hl : BelowLimit ro.rxns ro.T kr) :
    FitConstants ro.rxns (kBeV * ro.T) (gasEnergy ro.T G) kf kr := by
  obtain ⟨k1, k2, k3⟩ := kOk_rateConstants hk
  refine ⟨⟨k1, k2⟩, k3, ?_⟩
  intro i hi states is fs e1 e2 e3
  obtain ⟨a, b, ha, hb, pa, pb, -, heq, -⟩ := C127_constants_partial E G hG ro hT hg r hr kf kr hk i hi states is fs e1 e2 e3
  refine ⟨a, b, ha, hb, pa, pb, heq ?_⟩
  by_cases hgas : ∃ f ∈ is, f.type = .gas
  · exact Or.inl (hl i hi states is b e1 e2 hgas hb)
  · right
    intro f hf hfg
    exact hgas ⟨f, hf, hfg⟩

/-- What the theorems on models with collision theory have in common. -/
structure CollisionModel (o : MFOwner ℝ) (total P C : Str → ℝ) (ro : RateOwner) (G : Str → ℝ) (kf kr : List ℝ) : Prop where
  ready : Ready o total P C
  clean : ∀ states ∈ o.net.rxns, RateClean states
  plain : ∀ states ∈ o.net.rxns, PlainSites states
  gases : ∀ x ∈ ro.rxns, ∀ states, eqnFormulas x = .ok states → OneGas states
  same : ro.rxns = o.rxns
  warm : 0 < ro.T
  energies : ∃ E r, Extends G E ∧ relativeFromAbsolute (some E) o.rxns = .ok r ∧
    rateConstants ro .CT ⟨some r.gaf, some r.gar, some r.dg⟩ = .ok (kf, kr)
  limit : BelowLimit ro.rxns ro.T kr

theorem CollisionModel.fit {o : MFOwner ℝ} {total P C : Str → ℝ} {ro : RateOwner} {G : Str → ℝ} {kf kr : List ℝ}
    (m : CollisionModel o total P C ro G kf kr) : FitConstants o.rxns (kBeV * ro.T) (gasEnergy ro.T G) kf kr := by
  obtain ⟨E, r, hG, hr, hk⟩ := m.energies
  rw [← m.same] at hr ⊢
  exact fit_CT E G hG ro m.warm m.gases r hr kf kr hk m.limit

/-- **C127** Below the limit every reaction runs from higher to lower chemical potential, with the entropy terms of the gases in their
potentials, and stands still exactly when they are equal. Missing: as in `C127_constants_partial`, and end states with transition states or starred species
and sites with a star in their name, as in C85. -/
theorem C127_direction_partial (o : MFOwner ℝ) (total P C : Str → ℝ) (ro : RateOwner) (G : Str → ℝ) (kf kr : List ℝ)
    (m : CollisionModel o total P C ro G kf kr) (v : Str → ℝ) (hpos : AllPositive o.net P C (coverage o.net total v)) :
    ∃ rfs rrs, getRates o (kf, kr) (o.net.ads.map v) = .ok (rfs, rrs) ∧
      rfs.length = o.rxns.length ∧ rrs.length = o.rxns.length ∧
      ∀ i (hi : i < o.rxns.length) states is fs, eqnFormulas o.rxns[i] = .ok states →
        states.head? = some is → states.getLast? = some fs →
        ∃ a b, rfs[i]? = some a ∧ rrs[i]? = some b ∧ 0 < a ∧ 0 < b ∧
          let μ := statePotential (potential (kBeV * ro.T) (gasEnergy ro.T G) (activity o.net P C (coverage o.net total v)))
          b / a = Real.exp ((μ fs - μ is) / (kBeV * ro.T)) ∧
          (0 < a - b ↔ μ fs < μ is) ∧ (a - b = 0 ↔ μ fs = μ is) ∧ (a - b < 0 ↔ μ is < μ fs) :=
  direction_fit o total P C m.ready m.clean m.plain v hpos _ _ (mul_pos kBeV_pos m.warm) kf kr m.fit

/-- **C127** The free energy of the surface together with that of the gases and liquids set free never rises along a solution that begins
with everything present. Missing: moreover species on both sides and adsorbates on several sites, as in C93. -/
theorem C127_energy_partial (o : MFOwner ℝ) (total P C : Str → ℝ) (ro : RateOwner) (G : Str → ℝ) (kf kr : List ℝ)
    (m : CollisionModel o total P C ro G kf kr)
    (hone : ∀ a ∈ o.net.ads, ∀ states ∈ o.net.rxns, OneSided a states)
    (hn : ∀ a ∈ o.net.ads, ∀ f, chemFormula a = .ok f → f.nsite = 1) (T : ℝ) (v q : ℝ → Str → ℝ)
    (hv : Follows o (kf, kr) T v) (hq : Released o (kf, kr) T v q)
    (hpos : AllPositive o.net P C (coverage o.net total (v 0))) :
    AntitoneOn (fun t => surfaceEnergy (kBeV * ro.T) (gasEnergy ro.T G) o.net (coverage o.net total (v t))
      + ((o.net.gas ++ o.net.liq).map fun g => q t g * potential (kBeV * ro.T) (gasEnergy ro.T G) (activity o.net P C 0) g).sum)
      (Set.Icc 0 T) :=
  energy_fit o total P C m.ready m.clean m.plain _ _ (mul_pos kBeV_pos m.warm) kf kr m.fit hone hn T v q hv hq hpos

/-- **C127** At a steady state the gases and liquids consumed have at least the potential of those produced, and exactly the same only at
equilibrium. Missing: as above. -/
theorem C127_steady_partial (o : MFOwner ℝ) (total P C : Str → ℝ) (ro : RateOwner) (G : Str → ℝ) (kf kr : List ℝ)
    (m : CollisionModel o total P C ro G kf kr) (v : Str → ℝ) (hpos : AllPositive o.net P C (coverage o.net total v))
    (hone : ∀ a ∈ o.net.ads, ∀ states ∈ o.net.rxns, OneSided a states)
    (hn : ∀ a ∈ o.net.ads, ∀ f, chemFormula a = .ok f → f.nsite = 1) (c : Nat)
    (hst : steadyStateFunction o (kf, kr) (o.net.ads.map v) = .ok (List.replicate c 0)) :
    ∃ net tofs, getNetRates o (kf, kr) (o.net.ads.map v) = .ok net ∧ getTof o (kf, kr) (o.net.ads.map v) = .ok tofs ∧
      let μ := potential (kBeV * ro.T) (gasEnergy ro.T G) (activity o.net P C (coverage o.net total v))
      let F := (List.zipWith (fun g t => t * μ g) (o.net.gas ++ o.net.liq) tofs).sum
      F ≤ 0 ∧ (F = 0 ↔ ∀ x ∈ net, x = 0) :=
  steady_fit o total P C m.ready m.clean m.plain v hpos _ _ (mul_pos kBeV_pos m.warm) kf kr m.fit hone hn c hst

/-- **C127** The reversibilities a run reports, multiplied along reactions that leave nothing on the surface, give the free energy of the
gases and liquids, the entropy terms included. Missing: as in `C127_constants_partial`. -/
theorem C127_reported_partial (env : RunEnv ℝ) (total P C : Str → ℝ) (ro : RateOwner) (G : Str → ℝ)
    (m : CollisionModel env.o total P C ro G env.k.1 env.k.2)
    (plan : Py (Plan ℝ (List ℝ))) (xrc : Option (Option Str)) (st st' : RunState ℝ) (hrun : runModel env plan xrc st = some (st', .ok ()))
    (θ : Str → ℝ) (hθ : st'.rep.coverages = some (env.o.net.ads.map θ)) (hpos : AllPositive env.o.net P C (coverage env.o.net total θ))
    (w : List ℝ) (hw : w.length = env.o.rxns.length) (hs : ClosedOnSurface env.o.net w) :
    ∃ v, st'.rep.reversibilities = some v ∧ v.length = env.o.rxns.length ∧ (∀ z ∈ v, 0 < z) ∧
      logProduct w v = gasFreeEnergy env.o.net (kBeV * ro.T) (gasEnergy ro.T G) P C w / (kBeV * ro.T) := by
  obtain ⟨-, -, x, t, v, e, hrep, ⟨rf, rr, h1, h2, h3, -, -, rfl⟩⟩ := (C72_run env m.ready.parse plan xrc st st' _ hrun).2.2 rfl
  rw [hrep] at hθ ⊢
  cases hθ
  obtain ⟨rfs, rrs, e2, -, -, e3, e4⟩ := logProduct_fit env.o total P C m.ready m.clean m.plain θ hpos _ _ (mul_pos kBeV_pos m.warm)
    env.k.1 env.k.2 m.fit w hw hs
  rw [h1] at e2
  cases e2
  exact ⟨_, rfl, by simp [h2, h3], e3, e4⟩

theorem standstill_fit {o : MFOwner ℝ} {total P C : Str → ℝ} (h : Ready o total P C)
    (hc : ∀ states ∈ o.net.rxns, RateClean states) (hp : ∀ states ∈ o.net.rxns, PlainSites states) {v : Str → ℝ}
    (hpos : AllPositive o.net P C (coverage o.net total v)) {G : Str → ℝ} {kT : ℝ} (hkT : 0 < kT) {kf kr : List ℝ}
    (hfit : FitConstants o.rxns kT G kf kr) :
    Standstill o (kf, kr) v ↔ ∀ i (hi : i < o.rxns.length) states is fs, eqnFormulas o.rxns[i] = .ok states →
      states.head? = some is → states.getLast? = some fs →
      statePotential (potential kT G (activity o.net P C (coverage o.net total v))) fs
        = statePotential (potential kT G (activity o.net P C (coverage o.net total v))) is := by
  obtain ⟨rfs, rrs, h1, h2, h3, h4⟩ := direction_fit o total P C h hc hp v hpos G kT hkT kf kr hfit
  constructor
  · rintro ⟨a, b, e1, rfl⟩ i hi states is fs g1 g2 g3
    rw [h1] at e1
    cases e1
    obtain ⟨x, y, ex, ey, -, -, -, -, hz, -⟩ := h4 i hi states is fs g1 g2 g3
    rw [ex] at ey
    cases ey
    exact hz.mp (sub_self _)
  · intro hall
    refine ⟨rfs, rrs, h1, ?_⟩
    apply List.ext_getElem (by omega)
    intro i i1 i2
    obtain ⟨st, is, fs, g1, -, -, g4, g5, -⟩ := states_ok h.parse (i := i) (by omega)
    obtain ⟨x, y, ex, ey, -, -, -, -, hz, -⟩ := h4 i (by omega) st is fs g1 g4 g5
    rw [List.getElem?_eq_getElem (by omega)] at ex ey
    rw [Option.some.inj ex, Option.some.inj ey]
    exact sub_eq_zero.mp (hz.mpr (hall i (by omega) st is fs g1 g4 g5))

/-- **C127** Collision theory below the limit and transition state theory with the entropy terms in the table have the same
equilibria. Missing: as in `C127_constants_partial`. -/
theorem C127_equilibrium_partial (o : MFOwner ℝ) (total P C : Str → ℝ) (ro ro' : RateOwner) (G : Str → ℝ) (kf kr kf' kr' : List ℝ)
    (m : CollisionModel o total P C ro G kf kr) (hro' : ro'.rxns = o.rxns) (hT' : ro'.T = ro.T)
    (E' : Dict Str ℝ) (hE' : Extends (gasEnergy ro.T G) E') (r' : Rel ℝ) (hr' : relativeFromAbsolute (some E') o.rxns = .ok r')
    (hk' : rateConstants ro' .TST ⟨some r'.gaf, some r'.gar, some r'.dg⟩ = .ok (kf', kr'))
    (v : Str → ℝ) (hpos : AllPositive o.net P C (coverage o.net total v)) :
    Standstill o (kf, kr) v ↔ Standstill o (kf', kr') v := by
  have hT : 0 < ro.T := m.warm
  obtain ⟨kf1, kr1, hk1, hfit⟩ := fit_TST E' _ hE' ro' hro' (by rw [hT']; exact hT) r' hr'
  rw [hk'] at hk1
  cases hk1
  rw [hT'] at hfit
  rw [standstill_fit m.ready m.clean m.plain hpos (mul_pos kBeV_pos hT) m.fit,
    standstill_fit m.ready m.clean m.plain hpos (mul_pos kBeV_pos hT) hfit]

/-! ### on the lattice -/

/-- The logarithm of the pressures of a state. -/
theorem log_specPressure {P : Str → ℝ} {fs : List Formula} (h : ∀ f ∈ fs, f.type = .gas → 0 < P f.speciesSite) :
    Real.log (specPressure P fs) = (fs.map fun f => if f.type = .gas then (f.stoich : ℝ) * Real.log (P f.speciesSite) else 0).sum := by
  induction fs with
  | nil => simp [specPressure]
  | cons f fs ih =>
    have ih := ih fun f hf => h f (List.mem_cons_of_mem _ hf)
    rw [List.map_cons, List.sum_cons, ← ih]
    by_cases e : f.type = .gas
    · have h1 := h f List.mem_cons_self e
      have h2 : 0 < specPressure P fs := specPressure_pos fun f hf => h f (List.mem_cons_of_mem _ hf)
      rw [if_pos e, ← Real.log_pow, ← Real.log_mul (pow_pos h1 _).ne' h2.ne']
      unfold specPressure
      rw [List.filter_cons_of_pos (by simpa using e), List.map_cons, List.prod_cons]
    · rw [if_neg e, zero_add]
      unfold specPressure
      rw [List.filter_cons_of_neg (by simpa using e)]

/-- **C127** On the lattice: processes with rates by collision theory from absolute energies are balanced by energies of the
element types that fit the energies with the entropy terms, the gases being at their pressures. So all of C120 and C125 holds for them. Missing: as in `C127_constants_partial`, and gases
outside the data base of the library (`C127_unknown_gas_refuted`). -/
theorem C127_lattice_partial (ro : RateOwner) (hT : 0 < ro.T) (E : Dict Str ℝ) (G : Str → ℝ) (hG : Extends G E) (r : Rel ℝ)
    (hr : relativeFromAbsolute (some E) ro.rxns = .ok r) (P : Str → ℝ) (hP : Extends P ro.pressures) (types : List Str)
    (ds : List (ProcDict C)) (procs : List (KProc ℝ C)) (m : List Str)
    (h : getProcesses (latticeOwner ro .CT ⟨some r.gaf, some r.gar, some r.dg⟩ types) ds [] = (.ok procs, m))
    (hd : ∀ d ∈ ds, d.redist = false ∧ WildSame d.before d.after)
    (hg : ∀ d ∈ ds, ∀ states, eqnFormulas d.reaction = .ok states → OneGas states ∧
      ∀ is fs, states.head? = some is → states.getLast? = some fs → ∀ g ∈ is ++ fs, g.type = .gas →
        g.text = g.speciesSite ∧ 0 < P g.speciesSite ∧ ∃ f sigma rot vib m, InDatabase g.speciesSite f sigma rot vib m)
    (hl : ∀ d ∈ ds, ∀ rf rr states is, kmcRates ro .CT ⟨some r.gaf, some r.gar, some r.dg⟩ d.reaction = .ok (rf, rr) →
      eqnFormulas d.reaction = .ok states → states.head? = some is → (∃ f ∈ is, f.type = .gas) → rr < kBeV * ro.T / heV)
    (φ : Str → ℝ) (hφ : ∀ d ∈ ds, TypesFit (kBeV * ro.T) (gasEnergy ro.T G) P φ d)
    (place : C → Int → List (List S)) (hplace : ∀ x b, ∀ a ∈ place x b, a.Nodup) :
    BalancedLattice (latticeOwner ro .CT ⟨some r.gaf, some r.gar, some r.dg⟩ types) (kBeV * ro.T) φ place ds procs := by
  refine ⟨⟨m, h⟩, hplace, hd, ?_⟩
  intro d hdm rf rr hrate
  have hB := kBeV_pos
  have hkT : 0 < kBeV * ro.T := mul_pos hB hT
  have hrate' : ratesCT ro ⟨some r.gaf, some r.gar, some r.dg⟩ true d.reaction = .ok (rf, rr) := hrate
  have hx : d.reaction ∈ ro.rxns := by
    by_contra hn
    have h2 : relOf ro.rxns ⟨some r.gaf, some r.gar, some r.dg⟩ d.reaction = .error .ValueError := by
      unfold relOf; rw [if_pos hn]
    unfold ratesCT at hrate'
    rw [h2] at hrate'
    exact nomatch hrate'
  obtain ⟨-, -, -, hv⟩ := C12_lists E ro.rxns r hr
  obtain ⟨i, hi, hix⟩ := List.mem_iff_getElem.mp hx
  obtain ⟨v, hv, -⟩ := hv i hi
  rw [hix] at hv
  have hrel := relOf_text hr hx
  rw [hv] at hrel
  obtain ⟨states, is, fs, e1, e2, e3, hgg, hdg, -⟩ := C12_single_reaction E G hG _ _ hv
  obtain ⟨ho, hdb⟩ := hg d hdm states e1
  obtain ⟨o1, o2⟩ := ho is fs e2 e3
  have hgood := ends_good e1 e2 e3
  have key := ratesCT_ratio hT hrel hgg e1 e2 e3 o1 (fun x => gasTerm ro.T x + kBeV * ro.T * Real.log (P x)) ?_ hrate'
  · dsimp only at key
    obtain ⟨k1, k2, -, k3, -⟩ := key
    refine ⟨k1, k2, ?_⟩
    have hex := k3 (by
      cases hf : is.find? (·.type = .gas) with
      | none => exact Or.inr rfl
      | some f => exact Or.inl (hl d hdm rf rr states is hrate e1 e2 ⟨f, List.mem_of_find?_eq_some hf, by simpa using List.find?_some hf⟩))
    have hfit := hφ d hdm states is fs e1 e2 e3
    have split : ∀ gs : List Formula, (∀ f ∈ gs, f ∈ is ++ fs) →
        stateFree (kBeV * ro.T) (gasEnergy ro.T G) P gs = specEnergy G gs + (gs.map fun f => if f.type = .gas then
          (f.stoich : ℝ) * (gasTerm ro.T f.speciesSite + kBeV * ro.T * Real.log (P f.speciesSite)) else 0).sum := by
      intro gs hgs
      unfold stateFree
      rw [specEnergy_gas ro.T G (fun f hf => (hgood f (hgs f hf)).1) (fun f hf => o2 f (hgs f hf)),
        log_specPressure (fun f hf ht => (hdb is fs e2 e3 f (hgs f hf) ht).2.1), add_assoc, ← List.sum_map_mul_left, ← sum_map_add']
      congr 2
      apply List.map_congr_left
      intro f _
      split
      · ring
      · ring
    rw [split fs (fun f hf => List.mem_append_right _ hf), split is (fun f hf => List.mem_append_left _ hf)] at hfit
    have hrf : rf = Real.exp (-(typesEnergy φ d.after - typesEnergy φ d.before) / (kBeV * ro.T)) * rr := by
      rw [hfit, show ∀ a b c d : ℝ, a + b - (c + d) = a - c + b - d from fun _ _ _ _ => by ring, ← hdg, ← hex]
      field_simp
    rw [hrf, ← mul_assoc, ← Real.exp_add]
    congr 2
    ring
  · intro f hf hfg p c hpp hcc
    obtain ⟨⟨ns, gd⟩, ht⟩ := hgood f hf
    obtain ⟨d1, d2, f', sigma, rot, vib, mm, d3⟩ := hdb is fs e2 e3 f hf hfg
    unfold pressureCT dictGet at hpp
    rw [if_pos rfl] at hpp
    cases hq : get? ro.pressures f.text with
    | none => rw [hq] at hpp; exact nomatch hpp
    | some q =>
      rw [hq] at hpp
      cases hpp
      have hPq : P f.speciesSite = q := by rw [← d1]; exact hP _ _ hq
      rw [entropyCorrection_name ht gd] at hcc
      obtain ⟨c0, hc0⟩ := entropyCorrection_one d3 hT (mul_pos P0_pos (hPq ▸ d2)) hcc
      have := C67_pressure_dependence d3 [] ro.T P0 (P0 * q) c0 c hT P0_pos (mul_pos P0_pos (hPq ▸ d2)) hc0 hcc
      rw [mul_div_cancel_left₀ _ P0_pos.ne'] at this
      unfold gasTerm
      rw [hc0, hPq]
      linarith

/-! ### what is missing -/

/-- Carbon dioxide as entry of the data base. -/
def fDioxide : Formula := ⟨str! "CO2_g", 1, str! "CO2", 1, str! "g", str! "CO2_g"⟩
theorem db_dioxide : InDatabase (str! "CO2_g") fDioxide 2 [33 / 50] [954, 1890, 3360] (440095 / 10000) :=
  ⟨by decide, by decide, by decide +kernel, by decide +kernel, by decide +kernel⟩

/-- The entropy term of carbon dioxide at 450 K is below zero. -/
theorem CO2_term : ∃ c, entropyCorrection [] 450 (some P0) (str! "CO2_g") = .ok c ∧ c < 0 := by
  have hr : rotationQ 450 ((2 : ℚ) : ℝ) ([(33 / 50 : ℚ)].map (↑)) = .ok (450 / (2 * (33 / 50))) := by
    unfold rotationQ
    simp only [List.map_cons, List.map_nil]
    rw [if_pos (by norm_num)]
    norm_num
  obtain ⟨qv, hv, hv1⟩ : ∃ qv, vibrationQ 450 ([(954 : ℚ), 1890, 3360].map (↑)) = .ok qv ∧ 1 ≤ qv := by
    have one : ∀ y : ℝ, 0 < y → 1 ≤ 1 / (1 - Real.exp (-y / 450)) := by
      intro y hy
      have h1 : Real.exp (-y / 450) < 1 := by
        rw [Real.exp_lt_one_iff]
        linarith
      have h2 := Real.exp_pos (-y / 450)
      rw [le_div_iff₀ (by linarith)]
      linarith
    refine ⟨_, rfl, ?_⟩
    simp only [List.foldl]
    exact one_le_mul_of_one_le_of_one_le (one_le_mul_of_one_le_of_one_le (one _ (by norm_num)) (one _ (by norm_num))) (one _ (by norm_num))
  rw [entropyCorrection_db db_dioxide [] 450 P0 (by norm_num) P0_pos.ne' hr hv]
  have hx : (10 : ℝ) ^ 20 ≤ 2 * Real.pi * (amu * ((440095 / 10000 : ℚ) : ℝ)) * kBJ * 450 / hJ ^ 2 := by
    have hpi := Real.pi_gt_three
    have h1 : (10 : ℝ) ^ 20 ≤ 2 * 3 * (amu * ((440095 / 10000 : ℚ) : ℝ)) * kBJ * 450 / hJ ^ 2 := by
      unfold amu kBJ hJ
      norm_num
    refine h1.trans ?_
    have := amu_pos
    have hk : 0 < kBJ := by unfold kBJ; norm_num
    have hh : 0 < hJ := by unfold hJ; norm_num
    gcongr
  have hw : (10 : ℝ) ^ 30 ≤ (2 * Real.pi * (amu * ((440095 / 10000 : ℚ) : ℝ)) * kBJ * 450 / hJ ^ 2) ^ (3 / 2 : ℝ) := by
    calc (10 : ℝ) ^ 30 = ((10 : ℝ) ^ 20) ^ (3 / 2 : ℝ) := by
          rw [← Real.rpow_natCast, ← Real.rpow_natCast, ← Real.rpow_mul (by norm_num)]
          norm_num
      _ ≤ _ := Real.rpow_le_rpow (by norm_num) hx (by norm_num)
  generalize (2 * Real.pi * (amu * ((440095 / 10000 : ℚ) : ℝ)) * kBJ * 450 / hJ ^ 2) ^ (3 / 2 : ℝ) = w at hw
  have hq : 1 < kBJ * 450 / P0 * w * (450 / (2 * (33 / 50))) * qv := by
    have h1 : 1 < kBJ * 450 / P0 * (10 : ℝ) ^ 30 * (450 / (2 * (33 / 50))) := by
      unfold kBJ P0
      norm_num
    have h2 : kBJ * 450 / P0 * (10 : ℝ) ^ 30 * (450 / (2 * (33 / 50))) ≤ kBJ * 450 / P0 * w * (450 / (2 * (33 / 50))) := by
      have hk : 0 < kBJ := by unfold kBJ; norm_num
      have := P0_pos
      gcongr
    nlinarith
  rw [if_neg (by linarith)]
  refine ⟨_, rfl, ?_⟩
  have hB := kBeV_pos
  have := Real.log_pos hq
  nlinarith [mul_pos hB this]

def exFormicRxn : Str := str! "HCOOH_s -> H2_g + CO2_g + *_s"
def exFormicE : Dict Str ℝ := [(str! "HCOOH_s", 0), (str! "H2_g", 0), (str! "CO2_g", 0), (str! "*_s", 0)]
def fHCOOH : Formula := ⟨str! "HCOOH_s", 1, str! "HCOOH", 1, str! "s", str! "HCOOH_s"⟩
def fFree : Formula := ⟨str! "*_s", 1, str! "*", 1, str! "s", str! "*_s"⟩

theorem exFormic_rel : relativeFromAbsolute (some exFormicE) [exFormicRxn] = .ok (⟨[0], [0], [0]⟩ : Rel ℝ) := by
  have e1 : singleRelative exFormicE exFormicRxn = .ok (⟨0, 0, 0⟩ : Rel1 ℝ) := by
    refine (show _ = Except.ok (⟨max (0 + ((1 : Nat) : ℝ) * 0) (0 + ((1 : Nat) : ℝ) * 0 + ((1 : Nat) : ℝ) * 0 + ((1 : Nat) : ℝ) * 0) - (0 + ((1 : Nat) : ℝ) * 0),
      max (0 + ((1 : Nat) : ℝ) * 0) (0 + ((1 : Nat) : ℝ) * 0 + ((1 : Nat) : ℝ) * 0 + ((1 : Nat) : ℝ) * 0) - (0 + ((1 : Nat) : ℝ) * 0 + ((1 : Nat) : ℝ) * 0 + ((1 : Nat) : ℝ) * 0),
      (0 + ((1 : Nat) : ℝ) * 0 + ((1 : Nat) : ℝ) * 0 + ((1 : Nat) : ℝ) * 0) - (0 + ((1 : Nat) : ℝ) * 0)⟩ : Rel1 ℝ) from rfl).trans ?_
    norm_num
  unfold relativeFromAbsolute
  simp only [List.mapM_cons, List.mapM_nil, e1, bind, Except.bind, pure, Except.pure, List.map_cons, List.map_nil]

/-- **C127** (refuted) With several gases only the first one has its entropy term counted: for the decomposition of formic acid into hydrogen
and carbon dioxide, which does not begin with a gas, the ratio of the constants is not that of the energies with the entropy terms. -/
theorem C127_two_gases_refuted : ∃ (ro : RateOwner) (kf kr : ℝ) (is fs : List Formula), ro.T = 450 ∧ ro.rxns = [exFormicRxn] ∧
    rateConstants ro .CT ⟨some [0], some [0], some [0]⟩ = .ok ([kf], [kr]) ∧
    eqnFormulas exFormicRxn = .ok [is, fs] ∧ (∀ f ∈ is, f.type ≠ .gas) ∧
    ∀ G : Str → ℝ, Extends G exFormicE →
      kf / kr ≠ Real.exp (-(specEnergy (gasEnergy 450 G) fs - specEnergy (gasEnergy 450 G) is) / (kBeV * 450)) := by
  have hB := kBeV_pos
  have hH := heV_pos
  obtain ⟨c2, hc2, hneg⟩ := CO2_term
  obtain ⟨c, hc⟩ := C67_defined_partial db_H2 [] 450 P0 (by norm_num) P0_pos (by
    intro _ t ht; simp only [List.mem_singleton] at ht; subst ht; norm_num)
  have hst : eqnFormulas exFormicRxn = .ok [[fHCOOH], [fH2, fDioxide, fFree]] := by decide
  have hrel : relOf [exFormicRxn] ⟨some [0], some [0], some [0]⟩ exFormicRxn = .ok (⟨0, 0, 0⟩ : Rel1 ℝ) :=
    relOf_ok.mpr ⟨by decide, _, _, _, rfl, rfl, rfl, by simp⟩
  have hrate : ratesCT ⟨[exFormicRxn], 450, [], 1, 1 / 2, true⟩ ⟨some [0], some [0], some [0]⟩ false exFormicRxn
      = .ok (kBeV * 450 / heV * Real.exp (-0 / (kBeV * 450)), kBeV * 450 / heV * Real.exp (-(0 - c) / (kBeV * 450))) := by
    unfold ratesCT
    rw [hst, hrel]
    simp only [bind, Except.bind, List.head?_cons, List.getLast?_cons_cons, List.getLast?_singleton]
    rw [show List.find? (fun x : Formula => decide (x.type = .gas)) [fHCOOH] = none by decide]
    dsimp only
    rw [show List.find? (fun x : Formula => decide (x.type = .gas)) [fH2, fDioxide, fFree] = some fH2 by decide]
    simp only [db_H2.mass]
    rw [if_neg (by norm_num)]
    simp only [pure, Except.pure, if_false, pressureCT, Bool.false_eq_true,
      show entropyCorrection [] 450 (some P0) fH2.text = .ok c from hc]
    rw [if_neg (by simp), (kTST_ok (by norm_num)).mpr rfl, (kTST_ok (by norm_num)).mpr rfl]
    simp [fH2]
  refine ⟨⟨[exFormicRxn], 450, [], 1, 1 / 2, true⟩, kBeV * 450 / heV * Real.exp (-0 / (kBeV * 450)),
    kBeV * 450 / heV * Real.exp (-(0 - c) / (kBeV * 450)), _, _, rfl, rfl, ?_, hst, by decide, ?_⟩
  · unfold rateConstants
    rw [if_neg (by simp)]
    simp only [List.mapM_cons, List.mapM_nil, hrate, bind, Except.bind, pure, Except.pure, List.map_cons, List.map_nil]
  · intro G hG heq
    have g1 : G (str! "HCOOH_s") = 0 := hG _ _ rfl
    have g2 : G (str! "H2_g") = 0 := hG _ _ rfl
    have g3 : G (str! "CO2_g") = 0 := hG _ _ rfl
    have g4 : G (str! "*_s") = 0 := hG _ _ rfl
    have hgood := ends_good (fs := [fH2, fDioxide, fFree]) hst rfl rfl
    rw [specEnergy_gas 450 G (fun f hf => (hgood f (List.mem_append_left _ hf)).1) (by decide),
      specEnergy_gas 450 G (fun f hf => (hgood f (List.mem_append_right _ hf)).1) (by decide)] at heq
    have t1 : gasTerm 450 (str! "H2_g") = c := by unfold gasTerm; rw [hc]
    have t2 : gasTerm 450 (str! "CO2_g") = c2 := by unfold gasTerm; rw [hc2]
    have e1 : specEnergy G [fHCOOH] = 0 := by
      rw [show specEnergy G [fHCOOH] = ((1 : Nat) : ℝ) * G (str! "HCOOH_s") + 0 from rfl, g1]; ring
    have e2 : specEnergy G [fH2, fDioxide, fFree] = 0 := by
      rw [show specEnergy G [fH2, fDioxide, fFree] = ((1 : Nat) : ℝ) * G (str! "H2_g") + (((1 : Nat) : ℝ) * G (str! "CO2_g") + (((1 : Nat) : ℝ) * G (str! "*_s") + 0)) from rfl,
        g2, g3, g4]; ring
    rw [e1, e2] at heq
    simp only [List.map_cons, List.map_nil, List.sum_cons, List.sum_nil] at heq
    rw [if_neg (by decide : ¬ fHCOOH.type = .gas), if_neg (by decide : ¬ fFree.type = .gas), if_pos (by decide : fH2.type = .gas), if_pos (by decide : fDioxide.type = .gas),
      show fH2.speciesSite = str! "H2_g" from rfl, show fDioxide.speciesSite = str! "CO2_g" from rfl, t1, t2,
      show fH2.stoich = 1 from rfl, show fDioxide.stoich = 1 from rfl, mul_div_mul_left _ _ (by positivity), ← Real.exp_sub] at heq
    have := Real.exp_injective heq
    rw [← sub_div, div_left_inj' (by positivity)] at this
    push_cast at this
    linarith

def exAtomRxn : Str := str! "N_s -> N_g + *_s"
def fNs : Formula := ⟨str! "N_s", 1, str! "N", 1, str! "s", str! "N_s"⟩
def fNg : Formula := ⟨str! "N_g", 1, str! "N", 1, str! "g", str! "N_g"⟩

/-- **C127** (refuted) On the lattice, a gas outside the data base of the library: the rates of its desorption by collision theory are the same at all
pressures, so at two atmospheres no energies of the types fit the reaction and balance the rates. -/
theorem C127_unknown_gas_refuted (d : ProcDict C) (hd : d.reaction = exAtomRxn) : ∃ kf kr : ℝ,
    (∀ p : ℝ, kmcRates ⟨[exAtomRxn], 450, [(str! "N_g", p)], 1, 1 / 2, true⟩ .CT ⟨some [2], some [0], some [2]⟩ d.reaction = .ok (kf, kr)) ∧
    ∀ G : Str → ℝ, Extends G [(str! "N_s", 0), (str! "N_g", 2), (str! "*_s", 0)] →
      ∀ φ, TypesFit (kBeV * 450) (gasEnergy 450 G) (fun _ => 2) φ d →
        Real.exp (-typesEnergy φ d.before / (kBeV * 450)) * kf ≠ Real.exp (-typesEnergy φ d.after / (kBeV * 450)) * kr := by
  have hB := kBeV_pos
  have hH := heV_pos
  have hst : eqnFormulas exAtomRxn = .ok [[fNs], [fNg, fFree]] := by decide
  have hrel : relOf [exAtomRxn] ⟨some [2], some [0], some [2]⟩ exAtomRxn = .ok (⟨2, 0, 2⟩ : Rel1 ℝ) :=
    relOf_ok.mpr ⟨by decide, _, _, _, rfl, rfl, rfl, by simp⟩
  have hent : ∀ (P : Dict Str ℝ) (p : ℝ), entropyCorrection P 450 (some p) (str! "N_g") = .ok 0 := by
    intro P p
    unfold entropyCorrection
    rw [show chemFormula (str! "N_g") = .ok fNg by decide]
    simp only [bind, Except.bind]
    rw [if_neg (by decide), show Dict.get? rotationTable fNg.speciesSite = none by decide +kernel]
    rfl
  refine ⟨kBeV * 450 / heV * Real.exp (-2 / (kBeV * 450)), kBeV * 450 / heV * Real.exp (-0 / (kBeV * 450)), ?_, ?_⟩
  · intro p
    rw [hd]
    unfold kmcRates ratesCT
    rw [hst, hrel]
    simp only [bind, Except.bind, List.head?_cons, List.getLast?_cons_cons, List.getLast?_singleton]
    rw [show List.find? (fun x : Formula => decide (x.type = .gas)) [fNs] = none by decide]
    dsimp only
    rw [show List.find? (fun x : Formula => decide (x.type = .gas)) [fNg, fFree] = some fNg by decide]
    rw [if_neg (by norm_num), if_neg (by simp)]
    simp only [show molecularMass fNg.species = .ok (140067 / 10000) by decide +kernel, pure, Except.pure, show pressureCT ⟨[exAtomRxn], 450, [(str! "N_g", p)], 1, 1 / 2, true⟩ true fNg.text = .ok (P0 * p) from rfl,
      show ∀ P p, entropyCorrection P 450 (some p) fNg.text = .ok 0 from hent]
    rw [(kTST_ok (by norm_num)).mpr rfl, (kTST_ok (by norm_num)).mpr rfl]
    simp
  · intro G hG φ hφ heq
    have hfit := hφ [[fNs], [fNg, fFree]] [fNs] [fNg, fFree] (hd ▸ hst) rfl rfl
    have g1 : G (str! "N_s") = 0 := hG _ _ rfl
    have g2 : G (str! "N_g") = 2 := hG _ _ rfl
    have g3 : G (str! "*_s") = 0 := hG _ _ rfl
    have hgood := ends_good (fs := [fNg, fFree]) hst rfl rfl
    unfold stateFree at hfit
    rw [specEnergy_gas 450 G (fun f hf => (hgood f (List.mem_append_left _ hf)).1) (by decide),
      specEnergy_gas 450 G (fun f hf => (hgood f (List.mem_append_right _ hf)).1) (by decide)] at hfit
    have t1 : gasTerm 450 (str! "N_g") = 0 := by unfold gasTerm; rw [hent]
    have e1 : specEnergy G [fNs] = 0 := by
      rw [show specEnergy G [fNs] = ((1 : Nat) : ℝ) * G (str! "N_s") + 0 from rfl, g1]; ring
    have e2 : specEnergy G [fNg, fFree] = 2 := by
      rw [show specEnergy G [fNg, fFree] = ((1 : Nat) : ℝ) * G (str! "N_g") + (((1 : Nat) : ℝ) * G (str! "*_s") + 0) from rfl, g2, g3]; norm_num
    rw [e1, e2] at hfit
    simp only [List.map_cons, List.map_nil, List.sum_cons, List.sum_nil] at hfit
    rw [if_neg (by decide : ¬ fNs.type = .gas), if_neg (by decide : ¬ fFree.type = .gas), if_pos (by decide : fNg.type = .gas),
      show fNg.speciesSite = str! "N_g" from rfl, t1] at hfit
    have p1 : specPressure (fun _ => (2 : ℝ)) [fNs] = 1 := by simp [specPressure, fNs, Formula.type]
    have p2 : specPressure (fun _ => (2 : ℝ)) [fNg, fFree] = 2 := by simp [specPressure, fNg, fFree, Formula.type]
    rw [p1, p2, Real.log_one] at hfit
    have ha : typesEnergy φ d.after = typesEnergy φ d.before + (2 + kBeV * 450 * Real.log 2) := by linarith
    rw [mul_left_comm, mul_left_comm (Real.exp (-typesEnergy φ d.after / _))] at heq
    have h1 := mul_left_cancel₀ (by positivity) heq
    rw [← Real.exp_add, ← Real.exp_add, ha] at h1
    have h2 := Real.exp_injective h1
    rw [← add_div, ← add_div, div_left_inj' (by positivity)] at h2
    have h3 : kBeV * 450 * Real.log 2 = 0 := by linarith
    have := Real.log_pos (by norm_num : (1 : ℝ) < 2)
    have : 0 < kBeV * 450 * Real.log 2 := by positivity
    linarith

/-! ### examples -/

noncomputable def exLoopMF : MFOwner ℝ := ⟨exLoopRxns, exLoopNet, [(str! "*_s", 1)], [(str! "CO_g", 1)], []⟩

/-- Adsorption and desorption of carbon monoxide on a cell that is small enough: collision theory stays below the limit. -/
theorem exLoop_collision (G : Str → ℝ) (hG : Extends G [(str! "CO_g", (0 : ℝ)), (str! "*_s", 0), (str! "CO_s", -2)]) :
    ∃ A kf kr, CollisionModel exLoopMF (fun _ => 1) (fun _ => 1) (fun _ => 1) ⟨exLoopRxns, 450, [], A, 1 / 2, true⟩ G kf kr := by
  have hB := kBeV_pos
  have hH := heV_pos
  have h1 : eqnFormulas (str! "CO_g + *_s -> CO_s") = .ok [[fCO, fFree], [⟨str! "CO_s", 1, str! "CO", 1, str! "s", str! "CO_s"⟩]] := by decide
  have h2 : eqnFormulas (str! "CO_s -> CO_g + *_s") = .ok [[⟨str! "CO_s", 1, str! "CO", 1, str! "s", str! "CO_s"⟩], [fCO, fFree]] := by decide
  obtain ⟨c, k1, hk1, hall⟩ := exLoop_rates
  have hgas : ∀ x ∈ exLoopRxns, ∀ states, eqnFormulas x = .ok states → OneGas states := by
    intro x hx states hs
    simp only [exLoopRxns, List.mem_cons, List.not_mem_nil, or_false] at hx
    rcases hx with rfl | rfl
    · rw [h1] at hs; cases hs
      intro is fs e1 e2; cases e1; cases e2
      exact ⟨by decide, by decide⟩
    · rw [h2] at hs; cases hs
      intro is fs e1 e2; cases e1; cases e2
      exact ⟨by decide, by decide⟩
  let K := Real.exp (-(specEnergy (gasEnergy 450 G) [⟨str! "CO_s", 1, str! "CO", 1, str! "s", str! "CO_s"⟩] - specEnergy (gasEnergy 450 G) [fCO, fFree]) / (kBeV * 450))
  have hK : 0 < K := Real.exp_pos _
  have hA : 0 < K * (kBeV * 450 / heV) / 2 / k1 := by positivity
  obtain ⟨rr, r1, r2, hr⟩ := hall _ hA
  refine ⟨_, _, _, ⟨⟨by decide, ?_, ?_, ?_⟩, fun st hst => rateClean_of ((by decide : ∀ st ∈ exLoopNet.rxns, rateCleanB st = true) st hst),
    fun st hst => plainSites_of ((by decide : ∀ st ∈ exLoopNet.rxns, plainSitesB st = true) st hst), hgas, rfl, by norm_num,
    ⟨_, ⟨[0, 2], [2, 0], [-2, 2]⟩, hG, C119_collision_refuted.1, hr⟩, ?_⟩⟩
  · rw [show exLoopMF.net.sites = [str! "*_s"] by decide]; simp only [List.mem_singleton, forall_eq]; rfl
  · rw [show exLoopMF.net.gas = [str! "CO_g"] by decide]; simp only [List.mem_singleton, forall_eq]; rfl
  · rw [show exLoopMF.net.liq = [] by decide]; simp
  · intro i hi states is b e1 e2 e3 e4
    have hi' : i < 2 := hi
    interval_cases i
    · cases e4
      obtain ⟨a, b, ha, hb, -, pb, hle, -⟩ := C127_constants_partial _ G hG ⟨exLoopRxns, 450, [], _, 1 / 2, true⟩ (by norm_num) hgas _ C119_collision_refuted.1 _ _ hr 0 hi
        [[fCO, fFree], [⟨str! "CO_s", 1, str! "CO", 1, str! "s", str! "CO_s"⟩]] [fCO, fFree] [⟨str! "CO_s", 1, str! "CO", 1, str! "s", str! "CO_s"⟩] h1 rfl rfl
      cases ha; cases hb
      have hle' : K ≤ K * (kBeV * 450 / heV) / 2 / k1 * k1 / rr := hle
      rw [div_mul_cancel₀ _ hk1.ne', le_div_iff₀ r1, mul_div_assoc] at hle'
      have := le_of_mul_le_mul_left hle' hK
      have h3 : 0 < kBeV * 450 / heV := by positivity
      show rr < kBeV * 450 / heV
      linarith
    · exfalso
      replace e1 : eqnFormulas (str! "CO_s -> CO_g + *_s") = .ok states := e1
      rw [h2] at e1
      cases e1; cases e2
      revert e3
      decide

theorem exLoop_positive : AllPositive exLoopMF.net (fun _ => 1) (fun _ => 1) (coverage exLoopMF.net (fun _ => 1) fun _ => 1 / 4) := by
  unfold AllPositive
  rw [show allCols exLoopMF.net = [str! "*_s", str! "CO_s", str! "CO_g"] by decide]
  simp only [List.mem_cons, List.not_mem_nil, or_false, forall_eq_or_imp, forall_eq]
  unfold activity coverage
  rw [show exLoopMF.net.ads = [str! "CO_s"] by decide, show exLoopMF.net.gas = [str! "CO_g"] by decide, show exLoopMF.net.liq = [] by decide]
  have f1 : [str! "CO_s"].filter (fun a => decide (OnSite a (str! "*_s"))) = [str! "CO_s"] := by decide
  refine ⟨?_, ?_, ?_⟩
  · rw [if_neg (by decide), if_neg (by decide), if_neg (by decide), f1]; norm_num
  · rw [if_neg (by decide), if_neg (by decide), if_pos (by decide)]; norm_num
  · rw [if_pos (by decide)]; norm_num

/-- The loop at a quarter of the sites covered: its two directions, and the product of its reversibilities is one. -/
example : ∃ A kf kr, ∃ G, CollisionModel exLoopMF (fun _ => 1) (fun _ => 1) (fun _ => 1) ⟨exLoopRxns, 450, [], A, 1 / 2, true⟩ G kf kr ∧
    ∃ rfs rrs, getRates exLoopMF (kf, kr) (exLoopMF.net.ads.map fun _ => 1 / 4) = .ok (rfs, rrs) ∧ rfs.length = 2 ∧ rrs.length = 2 := by
  obtain ⟨G, hG⟩ := exists_extends [(str! "CO_g", (0 : ℝ)), (str! "*_s", 0), (str! "CO_s", -2)]
  obtain ⟨A, kf, kr, m⟩ := exLoop_collision G hG
  obtain ⟨rfs, rrs, h1, h2, h3, -⟩ := C127_direction_partial _ _ _ _ _ _ _ _ m (fun _ => 1 / 4) exLoop_positive
  exact ⟨A, kf, kr, G, m, rfs, rrs, h1, h2, h3⟩

theorem exLoop_one : ∀ a ∈ exLoopMF.net.ads, ∀ st ∈ exLoopMF.net.rxns, OneSided a st :=
  fun a ha st hst => oneSided_of ((by decide : ∀ a ∈ exLoopNet.ads, ∀ st ∈ exLoopNet.rxns, oneSidedB a st = true) a ha st hst)

theorem exLoop_nsite : ∀ a ∈ exLoopMF.net.ads, ∀ f, chemFormula a = .ok f → f.nsite = 1 := by
  have : ∀ a ∈ exLoopNet.ads, (match chemFormula a with | .ok f => decide (f.nsite = 1) | .error _ => true) = true := by decide
  intro a ha f hf
  have := this a ha
  rw [hf] at this
  simpa using this

/-- Along the solution from there free energy never rises. -/
example : ∃ (A : ℝ) (k : List ℝ × List ℝ) (G : Str → ℝ) (v q : ℝ → Str → ℝ),
    CollisionModel exLoopMF (fun _ => 1) (fun _ => 1) (fun _ => 1) ⟨exLoopRxns, 450, [], A, 1 / 2, true⟩ G k.1 k.2 ∧
    v 0 (str! "CO_s") = 1 / 4 ∧ Follows exLoopMF k 1 v ∧
    AntitoneOn (fun t => surfaceEnergy (kBeV * 450) (gasEnergy 450 G) exLoopMF.net (coverage exLoopMF.net (fun _ => (1 : ℝ)) (v t))
      + ((exLoopMF.net.gas ++ exLoopMF.net.liq).map fun g => q t g * potential (kBeV * 450) (gasEnergy 450 G) (activity exLoopMF.net (fun _ => 1) (fun _ => 1) 0) g).sum)
      (Set.Icc 0 1) := by
  obtain ⟨G, hG⟩ := exists_extends [(str! "CO_g", (0 : ℝ)), (str! "*_s", 0), (str! "CO_s", -2)]
  obtain ⟨A, kf, kr, m⟩ := exLoop_collision G hG
  obtain ⟨κf, κr, hκf, hκr⟩ := m.fit.own
  have hok : FlowOk exLoopMF (fun _ => 1) (fun _ => 1) (fun _ => 1) kf kr κf κr := ⟨m.ready, m.clean, hκf, hκr, exLoop_one, exLoop_nsite⟩
  obtain ⟨p1, p2⟩ := fit_pos m.ready.parse m.fit
  have hth : ∀ x ∈ exLoopMF.net.siteCols, 0 < coverage exLoopMF.net (fun _ => (1 : ℝ)) (fun _ => 1 / 4) x := by
    intro x hx
    have := exLoop_positive x (by unfold allCols; exact List.mem_append_left _ hx)
    rwa [activity_site m.ready.parse _ _ _ hx] at this
  obtain ⟨v, hv0, hv⟩ := C93_exists_partial _ _ _ _ _ _ _ _ hok (fun _ => 1 / 4)
    ⟨fun k hk => (p1 k hk).le, fun k hk => (p2 k hk).le, fun _ _ => zero_le_one, fun _ _ => zero_le_one, fun x hx => (hth x hx).le⟩
  have hcov : ∀ x, coverage exLoopMF.net (fun _ => (1 : ℝ)) (v 0) x = coverage exLoopMF.net (fun _ => (1 : ℝ)) (fun _ => 1 / 4) x := by
    intro x
    unfold coverage
    split
    · exact hv0 x ‹_›
    · congr 2
      apply List.map_congr_left
      intro a ha
      exact hv0 a (List.mem_filter.mp ha).1
  obtain ⟨q, -, hq⟩ := C93_released_partial _ _ _ _ _ _ _ _ hok 1 v (hv 1)
  refine ⟨A, (kf, kr), G, v, q, m, hv0 _ (by decide), hv 1, ?_⟩
  exact C127_energy_partial _ _ _ _ _ _ _ _ m exLoop_one exLoop_nsite 1 v q (hv 1) hq (by
    rw [show coverage exLoopMF.net (fun _ => (1 : ℝ)) (v 0) = _ from funext hcov]
    exact exLoop_positive)

theorem exLoop_unblocked : Unblocked exLoopNet :=
  C123_adsorption exLoopRxns exLoopNet (by decide) fun a ha => by
    have : ∀ a ∈ exLoopNet.ads, (str! "*_s") ∈ exLoopNet.sites ∧ OnSite a (str! "*_s") ∧ directB exLoopNet a (str! "*_s") = true := by decide
    exact ⟨_, (this a ha).1, (this a ha).2.1, direct_of (this a ha).2.2⟩

/-- The loop has a steady state by collision theory with everything present, to which `C127_steady_partial` applies. By `C127_equilibrium_partial`
it stands still there exactly if it does with the constants of transition state theory for the table with the entropy term. -/
example : ∃ (A : ℝ) (k : List ℝ × List ℝ) (G : Str → ℝ) (v : Str → ℝ),
    CollisionModel exLoopMF (fun _ => 1) (fun _ => 1) (fun _ => 1) ⟨exLoopRxns, 450, [], A, 1 / 2, true⟩ G k.1 k.2 ∧
    AllPositive exLoopMF.net (fun _ => 1) (fun _ => 1) (coverage exLoopMF.net (fun _ => 1) v) ∧
    steadyStateFunction exLoopMF k (exLoopMF.net.ads.map v) = .ok (List.replicate 1 0) ∧
    ∃ (E' : Dict Str ℝ) (r' : Rel ℝ) (k' : List ℝ × List ℝ), Extends (gasEnergy 450 G) E' ∧ relativeFromAbsolute (some E') exLoopRxns = .ok r' ∧
      rateConstants ⟨exLoopRxns, 450, [], 0, 0, false⟩ .TST ⟨some r'.gaf, some r'.gar, some r'.dg⟩ = .ok k' ∧
      (Standstill exLoopMF k v ↔ Standstill exLoopMF k' v) := by
  obtain ⟨G, hG⟩ := exists_extends [(str! "CO_g", (0 : ℝ)), (str! "*_s", 0), (str! "CO_s", -2)]
  obtain ⟨A, kf, kr, m⟩ := exLoop_collision G hG
  obtain ⟨E, r, -, hr, hk⟩ := m.energies
  obtain ⟨v, hv, hst⟩ := C123_exists_partial exLoopMF _ _ _ m.ready m.clean exLoop_one exLoop_nsite _ m.same m.warm .CT _ (kf, kr) hk
    (fun _ _ => zero_lt_one) (fun _ _ => zero_lt_one) (fun _ _ => zero_lt_one) exLoop_unblocked
  have hpos : AllPositive exLoopMF.net (fun _ => 1) (fun _ => 1) (coverage exLoopMF.net (fun _ => 1) v) := by
    intro x hx
    unfold allCols at hx
    rcases List.mem_append.mp hx with h | h
    · rw [activity_site m.ready.parse _ _ _ h]; exact hv x h
    · unfold activity
      rw [show exLoopMF.net.reaproCols = [str! "CO_g"] by decide, List.mem_singleton] at h
      subst h
      rw [if_pos (by decide)]
      exact zero_lt_one
  refine ⟨A, (kf, kr), G, v, m, hpos, hst, ?_⟩
  let E' : Dict Str ℝ := [(str! "CO_g", gasEnergy 450 G (str! "CO_g")), (str! "*_s", gasEnergy 450 G (str! "*_s")), (str! "CO_s", gasEnergy 450 G (str! "CO_s"))]
  have hE' : Extends (gasEnergy 450 G) E' := by
    intro k w hk
    simp only [E', get?] at hk
    split at hk
    · rename_i h; cases hk; rw [h]
    · split at hk
      · rename_i h; cases hk; rw [h]
      · split at hk
        · rename_i h; cases hk; rw [h]
        · exact nomatch hk
  obtain ⟨r', hr'⟩ := (C12_complete_tables E' exLoopMF.rxns exLoopMF.net m.ready.parse).1 (by
    rw [show keys E' = [str! "CO_g", str! "*_s", str! "CO_s"] from rfl]
    decide)
  obtain ⟨kf', kr', hk', -⟩ := fit_TST E' _ hE' ⟨exLoopRxns, 450, [], 0, 0, false⟩ rfl (by norm_num) r' hr'
  exact ⟨E', r', (kf', kr'), hE', hr', hk', C127_equilibrium_partial exLoopMF _ _ _ _ ⟨exLoopRxns, 450, [], 0, 0, false⟩ G kf kr kf' kr' m rfl rfl E' hE' r' hr' hk' v hpos⟩

theorem exLoop_closed : ClosedOnSurface exLoopNet [1, 1] := by
  have e2 : ∀ x w, production (K := ℝ) exLoopNet w x = (List.zipWith (fun (p : Int) r => (p : ℝ) * r) (exLoopNet.rxns.map (produced x)) w).sum := by
    intro x w
    unfold production
    rw [List.zipWith_map_left]
  unfold ClosedOnSurface
  rw [show exLoopNet.sites ++ exLoopNet.ads = [str! "*_s", str! "CO_s"] by decide]
  simp only [List.mem_cons, List.not_mem_nil, or_false, forall_eq_or_imp, forall_eq, e2]
  rw [show exLoopNet.rxns.map (produced (str! "*_s")) = [-1, 1] by decide, show exLoopNet.rxns.map (produced (str! "CO_s")) = [1, -1] by decide]
  norm_num

/-- A run of the loop by collision theory reports its two reversibilities. -/
example : ∃ (A : ℝ) (k : List ℝ × List ℝ) (G : Str → ℝ) (st' : RunState ℝ) (v : List ℝ),
    CollisionModel exLoopMF (fun _ => 1) (fun _ => 1) (fun _ => 1) ⟨exLoopRxns, 450, [], A, 1 / 2, true⟩ G k.1 k.2 ∧
    runModel (exRealRun exLoopMF k) (.ok (.fsolve (.given (exLoopMF.net.ads.map fun _ => 1 / 4)))) none ⟨.new, ⟨none, some 0, false, [], []⟩⟩ = some (st', .ok ()) ∧
    st'.rep.reversibilities = some v ∧
    logProduct [1, 1] v = gasFreeEnergy exLoopNet (kBeV * 450) (gasEnergy 450 G) (fun _ => 1) (fun _ => 1) [1, 1] / (kBeV * 450) := by
  obtain ⟨G, hG⟩ := exists_extends [(str! "CO_g", (0 : ℝ)), (str! "*_s", 0), (str! "CO_s", -2)]
  obtain ⟨A, kf, kr, m⟩ := exLoop_collision G hG
  obtain ⟨rfs, rrs, h2, h3, h4, h5⟩ := C127_direction_partial _ _ _ _ _ _ _ _ m (fun _ => 1 / 4) exLoop_positive
  have hv : ∃ w, Verif.reversibilities rfs rrs = .ok w := by
    unfold Verif.reversibilities
    rw [if_neg (by simp [h3, h4])]
    apply mapM_ok_exists
    intro q hq
    obtain ⟨i, hi, rfl⟩ := List.mem_iff_getElem.mp hq
    rw [List.length_zip] at hi
    obtain ⟨st, is, fs, g1, -, -, g4, g5, -⟩ := states_ok m.ready.parse (i := i) (by omega)
    obtain ⟨a, b, ra, -, pa, -⟩ := h5 i (by omega) st is fs g1 g4 g5
    rw [List.getElem?_eq_getElem (by omega)] at ra
    rw [List.getElem_zip]
    dsimp only
    rw [Option.some.inj ra, if_neg pa.ne']
    exact ⟨_, rfl⟩
  obtain ⟨st', e1, e2⟩ := fsolve_run (exRealRun exLoopMF (kf, kr)) (exLoopMF.net.ads.map fun _ => 1 / 4) rfl m.ready.parse rfs rrs h2 hv
    ⟨.new, ⟨none, some 0, false, [], []⟩⟩ 0 rfl
  obtain ⟨v, g1, -, -, g2⟩ := C127_reported_partial (exRealRun exLoopMF (kf, kr)) _ _ _ _ G m _ none _ st' e1 (fun _ => 1 / 4) e2 exLoop_positive [1, 1] rfl exLoop_closed
  exact ⟨A, (kf, kr), G, st', v, m, e1, g1, g2⟩

/-- Adsorption of carbon monoxide on a ring of three sites, at two atmospheres and by collision theory on a small cell, is balanced by the types. -/
example : ∃ (A : ℝ) (procs : List (KProc ℝ Nat)) (φ : Str → ℝ) (o : KmcOwner ℝ), procs ≠ [] ∧
    o = latticeOwner ⟨[str! "CO_g + *_s -> CO_s"], 450, [(str! "CO_g", 2)], A, 1 / 2, true⟩ .CT ⟨some [0], some [2], some [-2]⟩ [str! "V", str! "C"] ∧
    BalancedLattice o (kBeV * 450) φ exLatPlace (exLatDicts.take 1) procs := by
  have hB := kBeV_pos
  have hH := heV_pos
  obtain ⟨G, hG⟩ := exists_extends [(str! "CO_g", (0 : ℝ)), (str! "*_s", 0), (str! "CO_s", -2)]
  obtain ⟨m, c, k, r0, hm, hk, hc, h0⟩ := exLat_collision 1 one_pos
  have kp : 0 < k := (ratesCT_pos (by norm_num) (show ratesCT _ _ true _ = _ from h0)).1
  let D : ℝ := -2 - c
  let A : ℝ := (kBeV * 450 / heV) * Real.exp (-D / (kBeV * 450)) / 2 / k
  have hA : 0 < A := by have := Real.exp_pos (-D / (kBeV * 450)); positivity
  obtain ⟨m1, c1, rf, rr, hm1, hk1, hc1, h1⟩ := exLat_collision A hA
  rw [hm] at hm1; cases hm1
  rw [hc] at hc1; cases hc1
  rw [kCT_area A hk] at hk1
  have hrf : rf = A * k := (Except.ok.inj hk1).symm
  have hrr : rr < kBeV * 450 / heV := by
    obtain ⟨p, corr, hp, hcorr, q1, q2, q3, q4⟩ := C20_adsorption _ _ true _ rf rr _ _ fCO ⟨0, 2, -2⟩ (by norm_num) exLat_states.1 rfl rfl
      (relOf_ok.mpr ⟨by simp, _, _, _, rfl, rfl, rfl, by simp⟩) (show ratesCT _ _ true _ = _ from h1)
    cases hp
    replace hcorr : entropyCorrection [(str! "CO_g", 2)] 450 (some (P0 * 2)) (str! "CO_g") = .ok corr := hcorr
    rw [hc] at hcorr
    cases hcorr
    have hD : (-2 - (fCO.stoich : ℝ) * c) = D := by simp [fCO, D]
    dsimp only at q3 q4
    rw [hD] at q4
    have hL : 0 < kBeV * 450 / heV := by positivity
    have hx := Real.exp_pos (-D / (kBeV * 450))
    have hrf2 : rf = kBeV * 450 / heV * Real.exp (-D / (kBeV * 450)) / 2 := by rw [hrf]; simp only [A]; field_simp
    have hle : Real.exp (-D / (kBeV * 450)) ≤ rf / rr := by
      rcases q4 with q | ⟨-, q⟩
      · exact q.ge
      · exact q.le
    rw [le_div_iff₀ q2, hrf2] at hle
    have : Real.exp (-D / (kBeV * 450)) * rr ≤ Real.exp (-D / (kBeV * 450)) * (kBeV * 450 / heV / 2) := by linarith
    have := le_of_mul_le_mul_left this hx
    linarith
  have hrel : relativeFromAbsolute (some [(str! "CO_g", (0 : ℝ)), (str! "*_s", 0), (str! "CO_s", -2)]) [str! "CO_g + *_s -> CO_s"] = .ok ⟨[0], [2], [-2]⟩ := by
    have e1 : singleRelative [(str! "CO_g", 0), (str! "*_s", 0), (str! "CO_s", -2)] (str! "CO_g + *_s -> CO_s") = .ok (⟨0, 2, -2⟩ : Rel1 ℝ) := by
      refine (show _ = Except.ok (⟨max (0 + ((1 : Nat) : ℝ) * 0 + ((1 : Nat) : ℝ) * 0) (0 + ((1 : Nat) : ℝ) * -2) - (0 + ((1 : Nat) : ℝ) * 0 + ((1 : Nat) : ℝ) * 0),
        max (0 + ((1 : Nat) : ℝ) * 0 + ((1 : Nat) : ℝ) * 0) (0 + ((1 : Nat) : ℝ) * -2) - (0 + ((1 : Nat) : ℝ) * -2),
        (0 + ((1 : Nat) : ℝ) * -2) - (0 + ((1 : Nat) : ℝ) * 0 + ((1 : Nat) : ℝ) * 0)⟩ : Rel1 ℝ) from rfl).trans ?_
      norm_num
    unfold relativeFromAbsolute
    simp only [List.mapM_cons, List.mapM_nil, e1, bind, Except.bind, pure, Except.pure, List.map_cons, List.map_nil]
  let ro : RateOwner := ⟨[str! "CO_g + *_s -> CO_s"], 450, [(str! "CO_g", 2)], A, 1 / 2, true⟩
  have hall := (C51_accepted (latticeOwner ro .CT ⟨some [0], some [2], some [-2]⟩ [str! "V", str! "C"]) (exLatDicts.take 1) []).mpr (by
    intro d hd
    simp only [exLatDicts, List.take_succ_cons, List.take_zero, List.mem_cons, List.not_mem_nil, or_false] at hd
    subst hd
    refine ⟨by simp [latticeOwner, ro], rfl, by simp [latticeOwner], ?_⟩
    show (kmcRates ro .CT ⟨some [0], some [2], some [-2]⟩ (str! "CO_g + *_s -> CO_s")).isOk = true
    rw [show kmcRates ro .CT _ _ = _ from h1]
    rfl)
  cases h : getProcesses (latticeOwner ro .CT ⟨some [0], some [2], some [-2]⟩ [str! "V", str! "C"]) (exLatDicts.take 1) [] with
  | mk a mm =>
    rw [h] at hall
    cases a with
    | error e => exact nomatch hall
    | ok procs =>
      refine ⟨A, procs, fun t => if t = str! "C" then -2 - gasTerm 450 (str! "CO_g") - kBeV * 450 * Real.log 2 else 0, _, ?_, rfl, ?_⟩
      · obtain ⟨a, b, -, h1, -⟩ := process_made h (d := exLatDicts[0]) List.mem_cons_self rfl (b := 0) (List.mem_singleton.mpr rfl) (x := 0) (List.mem_singleton.mpr rfl)
        exact List.ne_nil_of_mem h1
      · have hst := exLat_states.1
        refine C127_lattice_partial ro (by norm_num [ro]) _ G hG _ hrel (fun _ => 2) ?_ _ _ procs mm h ?_ ?_ ?_ _ ?_ exLatPlace ?_
        · intro k v hk
          simp only [ro, get?] at hk
          split at hk
          · cases hk; rfl
          · exact nomatch hk
        · intro d hd
          simp only [exLatDicts, List.take_succ_cons, List.take_zero, List.mem_cons, List.not_mem_nil, or_false] at hd
          subst hd
          refine ⟨rfl, rfl, ?_⟩
          rintro (_ | j) b e h1 h2
          · cases h1; cases h2; decide
          · exact nomatch h1
        · intro d hd states hs
          simp only [exLatDicts, List.take_succ_cons, List.take_zero, List.mem_cons, List.not_mem_nil, or_false] at hd
          subst hd
          rw [show _ = _ from hst] at hs
          cases hs
          refine ⟨?_, ?_⟩
          · intro is fs e1 e2; cases e1; cases e2
            exact ⟨by decide, by decide⟩
          · intro is fs e1 e2 g hg ht; cases e1; cases e2
            simp only [List.getLast_cons_cons, List.getLast_singleton, List.cons_append, List.nil_append, List.mem_cons, List.not_mem_nil, or_false] at hg
            rcases hg with rfl | rfl | rfl
            · exact ⟨rfl, by norm_num, _, _, _, _, _, db_CO⟩
            · exact absurd ht (by decide)
            · exact absurd ht (by decide)
        · intro d hd a b states is hab _ _ _
          simp only [exLatDicts, List.take_succ_cons, List.take_zero, List.mem_cons, List.not_mem_nil, or_false] at hd
          subst hd
          rw [show kmcRates ro .CT _ _ = _ from h1] at hab
          cases hab
          exact hrr
        · intro d hd states is fs s1 s2 s3
          simp only [exLatDicts, List.take_succ_cons, List.take_zero, List.mem_cons, List.not_mem_nil, or_false] at hd
          subst hd
          rw [show _ = _ from hst] at s1
          cases s1; cases s2; cases s3
          have g1 : G (str! "CO_s") = -2 := hG _ _ rfl
          have g2 : G (str! "CO_g") = 0 := hG _ _ rfl
          have g3 : G (str! "*_s") = 0 := hG _ _ rfl
          have z : ∀ f : Formula, chemFormula f.speciesSite = .ok f → f.type ≠ .gas → gasTerm 450 f.speciesSite = 0 := by
            intro f hf ht
            unfold gasTerm entropyCorrection
            rw [hf]
            simp only [bind, Except.bind]
            rw [if_pos ht]
            rfl
          have z1 : gasTerm 450 (str! "CO_s") = 0 := z ⟨str! "CO_s", 1, str! "CO", 1, str! "s", str! "CO_s"⟩ (by decide) (by decide)
          have z2 : gasTerm 450 (str! "*_s") = 0 := z fFree (by decide) (by decide)
          simp [typesEnergy, stateFree, specEnergy, specPressure, gasEnergy, fCO, Formula.type, ro, g1, g2, g3, z1, z2]
          ring
        · intro x b a ha
          unfold exLatPlace at ha
          split at ha <;> (revert a; decide)

end Verif
