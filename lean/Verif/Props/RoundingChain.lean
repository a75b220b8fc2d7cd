import Verif.Props.RoundingEnergy
import Verif.Props.RoundingSearch
/-
C131: from the energies of a file to the coverages returned, with numbers of finite precision.
-/
namespace Verif
open Dict

/-- The rate constant of barriers that are close. -/
theorem kTST_near {T : ℝ} (hT : 0 < T) {x y D : ℝ} (h : |x - y| ≤ D) : ∃ a b, kTST x T = .ok a ∧ kTST y T = .ok b ∧
    Within (Real.exp (D / (kBeV * T))) a b := by
  have hk : 0 < kBeV * T := mul_pos kBeV_pos hT
  refine ⟨_, _, if_neg hT.ne', if_neg hT.ne', ?_⟩
  have h1 : |-x / (kBeV * T) - -y / (kBeV * T)| ≤ D / (kBeV * T) := by
    rw [← sub_div, abs_div, abs_of_pos hk, show -x - -y = -(x - y) by ring, abs_neg]
    exact div_le_div_of_nonneg_right h hk.le
  have := near_mul (le_refl 1) (near_refl (le_refl 1) (kBeV * T / heV)) (exp_near h1)
  rwa [one_mul] at this

theorem relOf_list {rxns : List Str} {l : List (Rel1 ℝ)} (hl : l.length = rxns.length) {rxn : Str} (hx : rxn ∈ rxns) :
    relOf rxns ⟨some (l.map (·.gaf)), some (l.map (·.gar)), some (l.map (·.dg))⟩ rxn =
      .ok (l[rxns.idxOf rxn]'(by rw [hl]; exact List.idxOf_lt_length_of_mem hx)) := by
  have hlt : rxns.idxOf rxn < l.length := by rw [hl]; exact List.idxOf_lt_length_of_mem hx
  have hg := List.getElem?_eq_getElem hlt
  exact relOf_ok.mpr ⟨hx, _, _, _, rfl, rfl, rfl, by simp [hg], by simp [hg], by simp [hg]⟩

/-- **C131** The rate constants computed from energies of species are those of the exact energies, up to a relative error
given by the two precisions, the barriers and the energies of the states. -/
theorem C131_constants (A : Arith) (u : ℝ) (hA : A.Rounds u) (B : Arith) (w : ℝ) (hB : B.Rounds w) (hw : w < 1)
    (E : Dict Str ℝ) (G : Str → ℝ) (hG : Extends G E) (o : RateOwner) (hT : 0 < o.T) (r : Rel ℝ) (hr : rdRelative A E o.rxns = .ok r)
    (L : Nat) (M : ℝ) (hM0 : 0 ≤ M)
    (hL : ∀ rxn ∈ o.rxns, ∀ states, eqnFormulas rxn = .ok states → ∀ fs ∈ states, fs.length ≤ L ∧ stateSize G fs ≤ M)
    (X : ℝ) (hX : ∀ rxn ∈ o.rxns, ∀ v, rdSingleRelative A E rxn = .ok v → |v.gaf / (kBeV * o.T)| ≤ X ∧ |v.gar / (kBeV * o.T)| ≤ X)
    (c : ℝ) (hc : c = (1 + w) ^ 4 * Real.exp (2 * w / (1 - w) * X) * Real.exp (2 * M * ((1 + u) ^ (L + 2) - 1) / (kBeV * o.T))) :
    ∃ r' k k', relativeFromAbsolute (some E) o.rxns = .ok r' ∧ rdConstants B o ⟨some r.gaf, some r.gar, some r.dg⟩ = .ok k' ∧
      rateConstants o .TST ⟨some r'.gaf, some r'.gar, some r'.dg⟩ = .ok k ∧
      List.Forall₂ (Within c) k'.1 k.1 ∧ List.Forall₂ (Within c) k'.2 k.2 := by
  obtain ⟨l, hl, rfl⟩ := rdRelative_ok hr
  set D := 2 * M * ((1 + u) ^ (L + 2) - 1) with hD
  have hrel := relPy_mapM_same (R := fun v w : Rel1 ℝ => |v.gaf - w.gaf| ≤ D ∧ |v.gar - w.gar| ≤ D ∧ |v.dg - w.dg| ≤ D) (l := o.rxns)
    (f := rdSingleRelative A E) (g := singleRelative E) (fun rxn hrxn => C131_barriers A u hA E G hG rxn L M hM0 (hL rxn hrxn))
  rw [hl] at hrel
  obtain ⟨m, hm, hlm⟩ := relPy_ok_left hrel
  have hex : relativeFromAbsolute (some E) o.rxns = .ok ⟨m.map (·.gaf), m.map (·.gar), m.map (·.dg)⟩ := by
    unfold relativeFromAbsolute
    have : (o.rxns.mapM fun r => match some E with
      | none => (.error .AttributeError : Py (Rel1 ℝ))
      | some E => singleRelative E r) = .ok m := hm
    rw [this]
    rfl
  obtain ⟨hl1, hl2⟩ := mapM_ok_inv hl
  have hm1 := (mapM_ok_inv hm).1
  have hone : ∀ rxn ∈ o.rxns, ∃ p q : ℝ × ℝ, ratesTST o ⟨some (l.map (·.gaf)), some (l.map (·.gar)), some (l.map (·.dg))⟩ false rxn = .ok p ∧
      ratesTST o ⟨some (m.map (·.gaf)), some (m.map (·.gar)), some (m.map (·.dg))⟩ false rxn = .ok q ∧
      Within (Real.exp (D / (kBeV * o.T))) p.1 q.1 ∧ Within (Real.exp (D / (kBeV * o.T))) p.2 q.2 := by
    intro rxn hx
    have hi := List.idxOf_lt_length_of_mem hx
    have hd : |(l[o.rxns.idxOf rxn]'(by omega)).gaf - (m[o.rxns.idxOf rxn]'(by omega)).gaf| ≤ D ∧
        |(l[o.rxns.idxOf rxn]'(by omega)).gar - (m[o.rxns.idxOf rxn]'(by omega)).gar| ≤ D ∧ _ := (List.forall₂_iff_get.mp hlm).2 _ (by omega) (by omega)
    obtain ⟨a, b, ha, hb, hab⟩ := kTST_near hT hd.1
    obtain ⟨a', b', ha', hb', hab'⟩ := kTST_near hT hd.2.1
    refine ⟨(a, a'), (b, b'), ?_, ?_, hab, hab'⟩
    · unfold ratesTST
      rw [relOf_list hl1 hx]
      simp only [bind, Except.bind, ha, ha']
      rfl
    · unfold ratesTST
      rw [relOf_list hm1 hx]
      simp only [bind, Except.bind, hb, hb']
      rfl
  have hpair := relPy_mapM_same (R := fun p q : ℝ × ℝ => Within (Real.exp (D / (kBeV * o.T))) p.1 q.1 ∧ Within (Real.exp (D / (kBeV * o.T))) p.2 q.2) (l := o.rxns)
    (f := ratesTST o ⟨some (l.map (·.gaf)), some (l.map (·.gar)), some (l.map (·.dg))⟩ false)
    (g := ratesTST o ⟨some (m.map (·.gaf)), some (m.map (·.gar)), some (m.map (·.dg))⟩ false) (by
      intro rxn hx
      obtain ⟨p, q, e1, e2, e3⟩ := hone rxn hx
      rw [e1, e2]
      exact e3)
  obtain ⟨ps, hps⟩ := mapM_ok_exists (f := ratesTST o ⟨some (l.map (·.gaf)), some (l.map (·.gar)), some (l.map (·.dg))⟩ false) (l := o.rxns)
    (fun rxn hx => let ⟨p, _, e, _⟩ := hone rxn hx; ⟨p, e⟩)
  rw [hps] at hpair
  obtain ⟨qs, hqs, hpq⟩ := relPy_ok_left hpair
  have hk0 : rateConstants o .TST ⟨some (l.map (·.gaf)), some (l.map (·.gar)), some (l.map (·.dg))⟩ = .ok (ps.map (·.1), ps.map (·.2)) := by
    unfold rateConstants
    simp only [Option.isNone_some, Bool.false_eq_true, if_false, hps]
    rfl
  have hk : rateConstants o .TST ⟨some (m.map (·.gaf)), some (m.map (·.gar)), some (m.map (·.dg))⟩ = .ok (qs.map (·.1), qs.map (·.2)) := by
    unfold rateConstants
    simp only [Option.isNone_some, Bool.false_eq_true, if_false, hqs]
    rfl
  have hB' := C130_constants B w hB hw o ⟨some (l.map (·.gaf)), some (l.map (·.gar)), some (l.map (·.dg))⟩ X (by
    intro rxn v hv
    have hx : rxn ∈ o.rxns := (relOf_ok.mp hv).1
    rw [relOf_list hl1 hx] at hv
    have hi := List.idxOf_lt_length_of_mem hx
    have := hl2 _ hi (by omega)
    rw [List.getElem_idxOf, Except.ok.inj hv] at this
    exact hX rxn hx v this)
  rw [hk0] at hB'
  obtain ⟨k', hk', b1, b2⟩ := relPy_ok_right hB'
  have hw0 := hB.nonneg
  have hX0 : o.rxns ≠ [] → 0 ≤ X := by
    intro hne
    obtain ⟨rxn, hx⟩ := List.exists_mem_of_ne_nil _ hne
    have hi := List.idxOf_lt_length_of_mem hx
    have := hl2 _ hi (by omega)
    rw [List.getElem_idxOf] at this
    exact (abs_nonneg _).trans (hX rxn hx _ this).1
  have trans : ∀ {xs ys zs : List ℝ}, o.rxns ≠ [] → List.Forall₂ (Within ((1 + w) ^ 4 * Real.exp (2 * w / (1 - w) * X))) xs ys →
      List.Forall₂ (Within (Real.exp (D / (kBeV * o.T)))) ys zs → List.Forall₂ (Within c) xs zs := by
    intro xs ys zs hne h1 h2
    have hc1 : 1 ≤ (1 + w) ^ 4 * Real.exp (2 * w / (1 - w) * X) :=
      one_le_mul_of_one_le_of_one_le (hB.one_le 4) (Real.one_le_exp (mul_nonneg (div_nonneg (by linarith) (by linarith)) (hX0 hne)))
    induction h1 generalizing zs with
    | nil => cases h2; exact .nil
    | cons hxy _ ih =>
      cases h2 with
      | cons hyz h2 =>
        refine .cons ?_ (ih h2)
        rw [hc]
        exact near_trans hc1 hxy hyz
  refine ⟨_, _, k', hex, hk', hk, ?_⟩
  by_cases hne : o.rxns = []
  · have hp0 : ps = [] := List.eq_nil_of_length_eq_zero (by rw [(mapM_ok_inv hps).1, hne]; rfl)
    subst hp0
    cases hpq
    cases h3 : k'.1 <;> cases h4 : k'.2 <;> simp_all
  · refine ⟨trans hne b1 ?_, trans hne b2 ?_⟩
    · rw [List.forall₂_map_left_iff, List.forall₂_map_right_iff]
      exact hpq.imp fun _ _ hx => hx.1
    · rw [List.forall₂_map_left_iff, List.forall₂_map_right_iff]
      exact hpq.imp fun _ _ hx => hx.2

/-- **C131** From the energies of species to the coverages returned: with energies in one precision and the solver in another,
the coverages satisfy the exact equations, for the exact energies, up to the tolerance and rounding errors, in a model whose
totals differ by rounding errors. -/
theorem C131_search (A : Arith) (u : ℝ) (hA : A.Rounds u) (B : Arith) (w : ℝ) (hB : B.Rounds w) (hw : w < 1)
    (E : Dict Str ℝ) (G : Str → ℝ) (hG : Extends G E) (ro : RateOwner) (hT : 0 < ro.T) (r : Rel ℝ) (hr : rdRelative A E ro.rxns = .ok r)
    (o : MFOwner ℝ) (total P C : Str → ℝ) (ho : Ready o total P C) (hro : ro.rxns = o.rxns)
    (hnd : o.rxns.Nodup) (hclean : ∀ states ∈ o.net.rxns, RateClean states)
    (L : Nat) (M : ℝ) (hM0 : 0 ≤ M)
    (hL : ∀ rxn ∈ o.rxns, ∀ states, eqnFormulas rxn = .ok states → ∀ fs ∈ states, fs.length ≤ L ∧ stateSize G fs ≤ M)
    (X : ℝ) (hX0 : 0 ≤ X) (hX : ∀ rxn ∈ o.rxns, ∀ v, rdSingleRelative A E rxn = .ok v → |v.gaf / (kBeV * ro.T)| ≤ X ∧ |v.gar / (kBeV * ro.T)| ≤ X)
    (k' : List ℝ × List ℝ) (hk' : rdConstants B ro ⟨some r.gaf, some r.gar, some r.dg⟩ = .ok k')
    (goodError : List ℝ → Py ℝ) (newton : List ℝ → List (List ℝ × ℝ) × IterEnd) (tol : ℝ) (maxIter : Int)
    (hybrid : Option (Option (List ℝ) → Nat → Py (List ℝ))) (plugins : List SolvePlugin) (singlePt : Bool)
    (constrain : List ℝ → Py (List ℝ)) (rounds : Nat) (c0 : Option (List ℝ)) (st st' : SolveState ℝ) (v : Str → ℝ)
    (hsearch : getSteady (rdSolveEnv B o k' goodError newton tol maxIter hybrid plugins singlePt) constrain rounds c0 st =
      some (st', .returned (o.net.ads.map v))) :
    ∃ r' k o' total' rf rr, relativeFromAbsolute (some E) o.rxns = .ok r' ∧
      rateConstants ro .TST ⟨some r'.gaf, some r'.gar, some r'.dg⟩ = .ok k ∧ SameButTotals o o' ∧ Ready o' total' P C ∧
      (∀ s, |total' s - total s| ≤ ((1 + w) ^ ((o.net.ads.filter (fun a => OnSite a s)).length + 1) - 1)
        * (|total s| + ((o.net.ads.filter (fun a => OnSite a s)).map fun a => |v a|).sum)) ∧
      getRates o' k (o.net.ads.map v) = .ok (rf, rr) ∧
      ∃ F : Str → ℝ, steadyStateFunction o' k (o.net.ads.map v) = .ok (o.net.ads.map F) ∧
        ∀ a ∈ o.net.ads, |F a| ≤ tol + ((1 + w) ^ (2 * L + 2 * o.rxns.length + 4) *
          Real.exp (2 * w / (1 - w) * X + 2 * M * ((1 + u) ^ (L + 2) - 1) / (kBeV * ro.T)) - 1) * turnoverOf a o.rxns rf rr := by
  have hw0 := hB.nonneg
  obtain ⟨r', k, k2, e1, e2, e3, h1, h2⟩ := C131_constants A u hA B w hB hw E G hG ro hT r hr L M hM0 (by rw [hro]; exact hL) X
    (by rw [hro]; exact hX) _ rfl
  rw [hk'] at e2
  cases e2
  have hL' : ∀ states ∈ o.net.rxns, ∀ fs ∈ states, fs.length ≤ L := by
    intro states hst fs hfs
    obtain ⟨i, hi, rfl⟩ := List.mem_iff_getElem.mp hst
    have hl := length_rxns ho.parse
    obtain ⟨st, -, -, q1, q2, -⟩ := states_ok ho.parse (show i < o.rxns.length by omega)
    rw [List.getElem?_eq_getElem hi] at q2
    cases q2
    exact (hL _ (List.getElem_mem _) _ q1 fs hfs).1
  have hD : 0 ≤ 2 * M * ((1 + u) ^ (L + 2) - 1) / (kBeV * ro.T) := by
    refine div_nonneg (mul_nonneg (by linarith) ?_) (mul_pos kBeV_pos hT).le
    have := hA.one_le (L + 2)
    linarith
  have hc : 1 ≤ (1 + w) ^ 4 * Real.exp (2 * w / (1 - w) * X) * Real.exp (2 * M * ((1 + u) ^ (L + 2) - 1) / (kBeV * ro.T)) :=
    one_le_mul_of_one_le_of_one_le (one_le_mul_of_one_le_of_one_le (hB.one_le 4)
      (Real.one_le_exp (mul_nonneg (div_nonneg (by linarith) (by linarith)) hX0))) (Real.one_le_exp hD)
  obtain ⟨o', total', rf, rr, hs, hr', hb, hrr, F, f1, f2⟩ := C130_returned B w hB o total P C ho hnd hclean _ hc k k' h1 h2
    (by rw [← hro]; exact rateConstants_len e3) L hL' goodError newton tol maxIter hybrid plugins singlePt constrain rounds c0 st st' v hsearch
  refine ⟨r', k, o', total', rf, rr, by rw [← hro]; exact e1, e3, hs, hr', hb, hrr, F, f1, fun a ha => ?_⟩
  have := f2 a ha
  rwa [show (1 + w) ^ 4 * Real.exp (2 * w / (1 - w) * X) * Real.exp (2 * M * ((1 + u) ^ (L + 2) - 1) / (kBeV * ro.T)) * (1 + w) ^ (2 * L + 2 * o.rxns.length) =
      (1 + w) ^ (2 * L + 2 * o.rxns.length + 4) * Real.exp (2 * w / (1 - w) * X + 2 * M * ((1 + u) ^ (L + 2) - 1) / (kBeV * ro.T)) by
    rw [pow_add _ _ 4, Real.exp_add]; ring] at this

/-! ### The hypotheses hold -/

theorem oneStep_states : eqnFormulas (str! "CO_g + *_s -> CO_s") = .ok
    [[⟨str! "CO_g", 1, str! "CO", 1, str! "g", str! "CO_g"⟩, ⟨str! "*_s", 1, str! "*", 1, str! "s", str! "*_s"⟩],
     [⟨str! "CO_s", 1, str! "CO", 1, str! "s", str! "CO_s"⟩]] := by decide

noncomputable def oneStepSpecies : Dict Str ℝ := [(str! "CO_g", -1), (str! "*_s", 0), (str! "CO_s", -3 / 2)]

theorem oneStep_rel (A : Arith) : ∃ v, rdSingleRelative A oneStepSpecies (str! "CO_g + *_s -> CO_s") = .ok v := by
  unfold rdSingleRelative
  rw [oneStep_states]
  exact ⟨_, rfl⟩

theorem oneStep_sizes {G : Str → ℝ} (hG : Extends G oneStepSpecies) : ∀ rxn ∈ oneStep, ∀ states, eqnFormulas rxn = .ok states →
    ∀ fs ∈ states, fs.length ≤ 2 ∧ stateSize G fs ≤ 3 / 2 := by
  have a1 : (-1 : ℝ) = G (str! "CO_g") := (hG (str! "CO_g") (-1 : ℝ) rfl).symm
  have a2 : (0 : ℝ) = G (str! "*_s") := (hG (str! "*_s") (0 : ℝ) rfl).symm
  have a3 : (-3 / 2 : ℝ) = G (str! "CO_s") := (hG (str! "CO_s") (-3 / 2 : ℝ) rfl).symm
  intro rxn hrxn states hst fs hfs
  have : rxn = str! "CO_g + *_s -> CO_s" := by
    unfold oneStep at hrxn
    simpa using hrxn
  subst this
  rw [oneStep_states] at hst
  cases hst
  rcases List.mem_pair.mp hfs with rfl | rfl
  · refine ⟨le_refl _, ?_⟩
    unfold stateSize
    rw [List.map_cons, List.map_singleton, List.sum_cons, List.sum_singleton, if_neg (by decide), if_pos (by decide), ← a1,
      show ('*' :: '_' :: str! "s") = str! "*_s" from rfl, ← a2]
    norm_num
  · refine ⟨by decide, ?_⟩
    unfold stateSize
    rw [List.map_singleton, List.sum_singleton, if_neg (by decide), ← a3]
    norm_num [abs_of_pos]

/-- Energies of species in double precision, the solver with 200 binary digits, at 500 K: with the tolerance
its residual the guess `1/2` is returned, so that the bound of `C131_search` holds for it. -/
example : ∃ (k k' : List ℝ × List ℝ) (r r' : Rel ℝ) (tol X : ℝ) (st st' : SolveState ℝ) (o' : MFOwner ℝ) (rf rr : List ℝ) (F : Str → ℝ),
    rdRelative (Arith.digits 53) oneStepSpecies oneStep = .ok r ∧
    rdConstants (Arith.digits 200) oneStepRates ⟨some r.gaf, some r.gar, some r.dg⟩ = .ok k' ∧
    getSteady (rdSolveEnv (Arith.digits 200) (oneStepModel 2) k' (fun _ => .ok 0) (fun _ => ([], .stopped)) tol 10 none [] false) .ok 1
      (some ((oneStepModel 2).net.ads.map fun _ => 1 / 2)) st = some (st', .returned ((oneStepModel 2).net.ads.map fun _ => 1 / 2)) ∧
    relativeFromAbsolute (some oneStepSpecies) (oneStepModel 2).rxns = .ok r' ∧
    rateConstants oneStepRates .TST ⟨some r'.gaf, some r'.gar, some r'.dg⟩ = .ok k ∧ SameButTotals (oneStepModel 2) o' ∧
    getRates o' k ((oneStepModel 2).net.ads.map fun _ => 1 / 2) = .ok (rf, rr) ∧
    steadyStateFunction o' k ((oneStepModel 2).net.ads.map fun _ => 1 / 2) = .ok ((oneStepModel 2).net.ads.map F) ∧
    ∀ a ∈ (oneStepModel 2).net.ads, |F a| ≤ tol + ((1 + 1 / 2 ^ 200) ^ 10 *
      Real.exp (2 * (1 / 2 ^ 200) / (1 - 1 / 2 ^ 200) * X + 2 * (3 / 2) * ((1 + 1 / 2 ^ 53) ^ 4 - 1) / (kBeV * 500)) - 1) * turnoverOf a oneStep rf rr := by
  obtain ⟨G, hG⟩ := exists_extends oneStepSpecies
  obtain ⟨v, hv⟩ := oneStep_rel (Arith.digits 53)
  have hr : rdRelative (Arith.digits 53) oneStepSpecies oneStep = .ok ⟨[v.gaf], [v.gar], [v.dg]⟩ := by
    unfold rdRelative oneStep
    rw [List.mapM_cons, hv]
    rfl
  set X := |v.gaf / (kBeV * 500)| + |v.gar / (kBeV * 500)| with hXd
  have hX0 : 0 ≤ X := by positivity
  have hX : ∀ rxn ∈ oneStep, ∀ v, rdSingleRelative (Arith.digits 53) oneStepSpecies rxn = .ok v →
      |v.gaf / (kBeV * 500)| ≤ X ∧ |v.gar / (kBeV * 500)| ≤ X := by
    intro rxn hrxn v' hv'
    have : rxn = str! "CO_g + *_s -> CO_s" := by
      unfold oneStep at hrxn
      simpa using hrxn
    subst this
    rw [hv] at hv'
    cases hv'
    exact ⟨le_add_of_nonneg_right (abs_nonneg _), le_add_of_nonneg_left (abs_nonneg _)⟩
  have hclean : ∀ states ∈ (oneStepModel 2).net.rxns, RateClean states := by
    have : ∀ states ∈ (netOf oneStep).rxns, RateClean states :=
      fun st hst => rateClean_of ((by decide : ∀ st ∈ (netOf oneStep).rxns, rateCleanB st = true) st hst)
    exact this
  have hnd : (oneStepModel 2).rxns.Nodup := by
    have : oneStep.Nodup := by decide
    exact this
  have hw : (1 / 2 ^ 200 : ℝ) < 1 := by norm_num
  have hT : 0 < oneStepRates.T := by show (0 : ℝ) < 500; norm_num
  obtain ⟨r', k, k', e1, e2, e3, h1, h2⟩ := C131_constants (Arith.digits 53) _ (digits_rounds 53) (Arith.digits 200) _ (digits_rounds 200) hw
    oneStepSpecies G hG oneStepRates hT _ hr 2 (3 / 2) (by norm_num) (oneStep_sizes hG) X hX _ rfl
  have hres : ∃ t, rdResidual (Arith.digits 200) (oneStepModel 2) k' ((oneStepModel 2).net.ads.map fun _ => 1 / 2) = .ok t := by
    obtain ⟨o', total', hs, hr', hd, -⟩ := C130_sites (Arith.digits 200) _ (digits_rounds 200) (oneStepModel 2) _ _ _ (oneStep_ready 2) (fun _ => 1 / 2)
    have hlen : k.1.length = 1 ∧ k.2.length = 1 := rateConstants_len e3
    have hone : (oneStepModel 2).rxns.length = 1 := rfl
    obtain ⟨⟨rf, rr⟩, hrr⟩ := (C25_defined_iff o' total' _ _ hr' (fun _ => 1 / 2) k.1 k.2 (by rw [hs.rxns]; exact hnd)
      (by rw [hs.rxns, hone]; exact hlen.1) (by rw [hs.rxns, hone]; exact hlen.2)).1.mpr (by rw [hs.net]; exact hclean)
    rw [hs.net] at hrr
    have hD : (0 : ℝ) ≤ 2 * (3 / 2) * ((1 + 1 / 2 ^ 53) ^ (2 + 2) - 1) / (kBeV * oneStepRates.T) :=
      div_nonneg (by norm_num) (mul_pos kBeV_pos hT).le
    obtain ⟨F, hf, -⟩ := C130_equations (Arith.digits 200) _ (digits_rounds 200) (oneStepModel 2) o' oneStep_parse hs _ hd _
      (one_le_mul_of_one_le_of_one_le (one_le_mul_of_one_le_of_one_le ((digits_rounds 200).one_le 4)
        (Real.one_le_exp (mul_nonneg (div_nonneg (by norm_num) (by linarith)) hX0))) (Real.one_le_exp hD)) k k' h1 h2 2 (oneStep_len 2) rf rr hrr
    unfold rdResidual
    rw [hf, show (oneStepModel 2).net.ads = _ from oneStep_ads]
    exact ⟨_, rfl⟩
  obtain ⟨t, hres⟩ := hres
  have hsearch : getSteady (rdSolveEnv (Arith.digits 200) (oneStepModel 2) k' (fun _ => .ok 0) (fun _ => ([], .stopped)) t 10 none [] false) .ok 1
      (some ((oneStepModel 2).net.ads.map fun _ => 1 / 2)) ⟨none, none, false, [], []⟩ =
      some (⟨some ((oneStepModel 2).net.ads.map fun _ => 1 / 2), some 0, true, [],
        [.coverages ((oneStepModel 2).net.ads.map fun _ => 1 / 2), .error 0, .guess ((oneStepModel 2).net.ads.map fun _ => 1 / 2)]⟩,
        .returned ((oneStepModel 2).net.ads.map fun _ => 1 / 2)) := by
    generalize ((oneStepModel 2).net.ads.map fun _ => (1 / 2 : ℝ)) = x at hres ⊢
    simp [getSteady, outerLoop, outerBody, rdSolveEnv, hres, finalizeAll, finish, allCalls, bind, Except.bind, pure, Except.pure]
  obtain ⟨r2, k2, o', total', rf, rr, f1, f2, f3, -, -, f4, F, f5, f6⟩ := C131_search (Arith.digits 53) _ (digits_rounds 53) (Arith.digits 200) _ (digits_rounds 200) hw
    oneStepSpecies G hG oneStepRates hT _ hr (oneStepModel 2) _ _ _ (oneStep_ready 2) rfl hnd hclean 2 (3 / 2) (by norm_num) (oneStep_sizes hG) X hX0 hX k' e2
    _ _ t 10 none [] false _ 1 _ _ _ _ hsearch
  exact ⟨k2, k', _, r2, t, X, _, _, o', rf, rr, F, hr, e2, hsearch, f1, f2, f3, f4, f5, f6⟩

end Verif
