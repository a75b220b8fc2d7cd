import Verif.Props.Hybrid
import Verif.Props.SteadyLoop
import Verif.Props.Newton
import Verif.Props.SmallResidual
import Verif.Props.Descent
/-
C133: whether the coverages found by the search are coverages of a surface.
-/
namespace Verif

variable {K : Type} [Field K] [LinearOrder K] (env : SolveEnv K)

/-- Leaving the loop with success means that the guess or a point of the iterator is kept. -/
theorem outerBody_point {outer : Nat} {c0 : List K} {st : SolveState K} (hl : (outerBody env outer c0 st).2 = .leave)
    (hst : env.hybrid = none → st.converged = false) (hconv : (outerBody env outer c0 st).1.converged = true) :
    (outerBody env outer c0 st).1.coverages = some c0 ∨
      ∃ x err, (outerBody env outer c0 st).1.coverages = some x ∧ (x, err) ∈ (env.newton c0).1 := by
  cases hr : env.resid c0 with
  | error e =>
    have eq : outerBody env outer c0 st = (st, catchZero env st.coverages outer e) := by unfold outerBody; rw [hr]
    rw [eq] at hl hconv
    rw [hst (catchZero_leave env hl)] at hconv
    cases hconv
  | ok r =>
    by_cases hg : r ≤ env.tol ∧ env.singlePt = false
    · cases he : env.goodError c0 with
      | error e =>
        have eq : outerBody env outer c0 st = ({ st with converged := true, coverages := some c0 }, catchZero env (some c0) outer e) := by
          unfold outerBody; rw [hr]; dsimp only; rw [if_pos hg, he]
        rw [eq]
        exact .inl rfl
      | ok err =>
        have eq : outerBody env outer c0 st = ({ st with converged := true, coverages := some c0, error := some err }, .leave) := by
          unfold outerBody; rw [hr]; dsimp only; rw [if_pos hg, he]
        rw [eq]
        exact .inl rfl
    · have eq := outerBody_iter env (outer := outer) (st := st) hr hg
      obtain ⟨m, -, -, harch, hsucc, hval, hfail⟩ := innerLoop_spec env outer (env.newton c0).2 (env.newton c0).1 0 (afterSetup env outer st)
      rw [eq] at hl hconv ⊢
      generalize innerLoop env outer (env.newton c0).2 0 (afterSetup env outer st) (env.newton c0).1 = R at *
      obtain ⟨st1, b⟩ := R
      cases b with
      | success =>
        obtain ⟨it, hit, hc, -, -⟩ := hval rfl
        exact .inr ⟨it.1, it.2, hc, List.mem_of_getElem? hit⟩
      | failed =>
        have h1 : st1.converged = st.converged := hfail (fun h => (nomatch h))
        rw [h1, hst (askHybrid_leave env hl)] at hconv
        cases hconv
      | raised e =>
        have h1 : st1.converged = st.converged := hfail (fun h => (nomatch h))
        rw [h1, hst (catchZero_leave env hl)] at hconv
        cases hconv
      | hangs => cases hl

theorem outerLoop_source (G : List K → Prop) (hG : FromHybrid env G) : ∀ (n outer : Nat) (c0 : List K) (st : SolveState K),
    G c0 → (env.hybrid = none → st.converged = false) → ∀ st' x, outerLoop env n outer c0 st = some (st', .returned x) →
    G x ∨ ∃ c err, G c ∧ (x, err) ∈ (env.newton c).1
  | 0, _, _, _, _, _ => by rintro st' x h; cases h
  | n + 1, outer, c0, st, hc0, hst => by
    intro st' x h
    rw [outerLoop_succ] at h
    have spec := outerBody_spec env outer c0 st
    obtain ⟨f1, f2, f3, f4⟩ := finalizeAll_fields env outer (outerBody env outer c0 st)
    have hpt := outerBody_point env (outer := outer) (c0 := c0) (st := st)
    generalize hb : (outerBody env outer c0 st).2 = b at *
    cases b with
    | leave =>
      obtain ⟨g1, g2, -⟩ := finish_returned (Option.some.inj h)
      rw [f3] at g1
      rw [f1] at g2
      rcases hpt rfl hst g1 with h1 | ⟨x', err, h1, h2⟩
      · rw [Option.some.inj (g2.symm.trans h1)]
        exact .inl hc0
      · rw [Option.some.inj (g2.symm.trans h1)]
        exact .inr ⟨c0, err, hc0, h2⟩
    | again o c =>
      obtain ⟨-, g, hg, hgc⟩ := spec.next o c hb
      exact outerLoop_source G hG n o c _ (hG g _ outer c hg hgc) (fun h' => by rw [hg] at h'; cases h') st' x h
    | raised e => cases Option.some.inj h
    | hangs => cases Option.some.inj h

/-- **C133** Where returned coverages come from, for every iterator and hybrid method: they are the first guess made physical, a guess of the
hybrid method, or a point of the iterator started from one of these. -/
theorem C133_source (constrain : List K → Py (List K)) (G : List K → Prop) (hcon : ∀ c c', constrain c = .ok c' → G c') (hhyb : FromHybrid env G)
    (n : Nat) (c0 : Option (List K)) (st st' : SolveState K) (x : List K) (h : getSteady env constrain n c0 st = some (st', .returned x)) :
    G x ∨ ∃ c err, G c ∧ (x, err) ∈ (env.newton c).1 := by
  rcases getSteady_start env h with ⟨e, h', -⟩ | ⟨c, c', hc, -, h'⟩
  · cases h'
  · exact outerLoop_source env G hhyb n 1 c' _ (hcon c c' hc) (fun _ => rfl) st' x h'

variable [IsStrictOrderedRing K]

/-- **C133** Part: the hybrid method proposes physical coverages only, and so does the iterator when it starts at physical ones. Then what the
search returns is physical: one number for every adsorbate, none negative or above one, no site over-full.
Missing: the iterators of the library, which leave the physical region (`C133_overfull_refuted`). -/
theorem C133_physical_partial (o : MFOwner K) (total P C : Str → K) (h : Ready o total P C) (hpos : ∀ s ∈ o.net.sites, 0 ≤ total s)
    (hhyb : FromHybrid env (Physical o.net total))
    (hit : ∀ c x err, Physical o.net total c → (x, err) ∈ (env.newton c).1 → Physical o.net total x)
    (n : Nat) (c0 : Option (List K)) (st st' : SolveState K) (x : List K)
    (hx : getSteady env (constrainCoverages o) n c0 st = some (st', .returned x)) : Physical o.net total x := by
  rcases C133_source env (constrainCoverages o) (Physical o.net total) (fun c c' hc => constrain_physical o total P C h hpos hc) hhyb n c0 st st' x hx
    with h1 | ⟨c, err, h1, h2⟩
  · exact h1
  · exact hit c x err h1 h2

/-- **C133** Part: `ConstrainedNewton`, whatever the step sizes. What the search returns is physical or one of the first five points of an
iteration that started at physical coverages. -/
theorem C133_constrained_partial {F M : Type} (o : MFOwner K) (total P C : Str → K) (h : Ready o total P C) (hpos : ∀ s ∈ o.net.sites, 0 ≤ total s)
    (hhyb : FromHybrid env (Physical o.net total)) (p : NewtonProblem (List K) K F M) (size : List K → Nat → Py K) (m : Nat)
    (hit : ∀ c, (env.newton c).1 = (conNewton p (constrainCoverages o) (size c) m c).1.map fun y => (y.x, y.norm))
    (n : Nat) (c0 : Option (List K)) (st st' : SolveState K) (x : List K)
    (hx : getSteady env (constrainCoverages o) n c0 st = some (st', .returned x)) :
    Physical o.net total x ∨ ∃ c i y, Physical o.net total c ∧ i < 5 ∧ (conNewton p (constrainCoverages o) (size c) m c).1[i]? = some y ∧ y.x = x := by
  rcases C133_source env (constrainCoverages o) (Physical o.net total) (fun c c' hc => constrain_physical o total P C h hpos hc) hhyb n c0 st st' x hx
    with h1 | ⟨c, err, h1, h2⟩
  · exact .inl h1
  · rw [hit c] at h2
    obtain ⟨y, hy, he⟩ := List.mem_map.mp h2
    obtain ⟨i, hi⟩ := List.mem_iff_getElem?.mp hy
    rw [← (Prod.mk.inj he).1]
    by_cases h5 : i < 5
    · exact .inr ⟨c, i, y, h1, h5, hi, rfl⟩
    · exact .inl (C33_physical o total P C h hpos p (size c) m c i y hi (by omega))

/-- **C133** Part: and then, for every distance, a search with a sufficiently small tolerance returns coverages within this distance of
a physical steady state (`C132_search`). -/
theorem C133_near_partial (o : MFOwner ℝ) (total P C : Str → ℝ) (h : Ready o total P C) (hc : ∀ states ∈ o.net.rxns, RateClean states)
    (hpos : ∀ s ∈ o.net.sites, 0 ≤ total s)
    (kf kr : List ℝ) (hnd : o.rxns.Nodup) (hlf : kf.length = o.rxns.length) (hlr : kr.length = o.rxns.length) (ε : ℝ) (hε : 0 < ε) :
    ∃ δ, 0 < δ ∧ ∀ (env : SolveEnv ℝ) (n : Nat) (c0 : Option (List ℝ)) (st st' : SolveState ℝ) (x : List ℝ),
      env.resid = getResidual o (kf, kr) → env.tol ≤ δ → FromHybrid env (Physical o.net total) →
      (∀ c x err, Physical o.net total c → (x, err) ∈ (env.newton c).1 → Physical o.net total x) →
      getSteady env (constrainCoverages o) n c0 st = some (st', .returned x) →
      ∃ w, PhysicalSteady o total (kf, kr) w ∧ ∀ (i : Nat) (a : Str) (c : ℝ), o.net.ads[i]? = some a → x[i]? = some c → |c - w a| ≤ ε := by
  obtain ⟨δ, hδ, hall⟩ := C132_search o total P C h hc kf kr hnd hlf hlr ε hε
  refine ⟨δ, hδ, fun env n c0 st st' x hres htol hhyb hit hx => ?_⟩
  have hp := C133_physical_partial env o total P C h hpos hhyb hit n c0 st st' x hx
  obtain ⟨v, rfl⟩ := tuple_as_function (ads_nodup h.parse) hp.length
  have hph : PhysicalCoverages o total v := by
    refine ⟨fun a ha => (hp.unit _ (List.mem_map_of_mem ha)).1, fun s hs => ?_⟩
    have := hp.sites s hs
    rwa [siteSum_map] at this
  obtain ⟨w, hw, hb⟩ := hall env (constrainCoverages o) n c0 st st' v hres htol hph hx
  refine ⟨w, hw, fun i a c ha hcv => ?_⟩
  rw [List.getElem?_map, ha] at hcv
  rw [← Option.some.inj hcv]
  exact hb a (List.mem_of_getElem? ha)

/-- An iterator that goes to the steady state of adsorption at once, from the empty surface. -/
noncomputable def directEnv : SolveEnv ℝ :=
  ⟨getResidual (oneStepModel 2) ([3], [2]), getResidual (oneStepModel 2) ([3], [2]), fun _ => ([([3 / 4], 0)], .stopped), 1 / 10, 10, none, [], false⟩

example : Ready (oneStepModel 2) (fun _ => 1) (fun _ => 2) (fun _ => 0) ∧ FromHybrid directEnv (Physical (oneStepModel 2).net fun _ => 1) ∧
    (∀ c x err, Physical (oneStepModel 2).net (fun _ => 1) c → (x, err) ∈ (directEnv.newton c).1 → Physical (oneStepModel 2).net (fun _ => 1) x) ∧
    ∃ st', getSteady directEnv (constrainCoverages (oneStepModel 2)) 1 (some [0]) ⟨none, none, false, [], []⟩ = some (st', .returned [3 / 4]) := by
  have hads : (oneStepModel 2).net.ads = [str! "CO_s"] := oneStep_ads
  have hsites : (oneStepModel 2).net.sites = [str! "*_s"] := by
    have : (netOf oneStep).sites = [str! "*_s"] := by decide
    exact this
  have hph : ∀ t : ℝ, 0 ≤ t → t ≤ 1 → Physical (oneStepModel 2).net (fun _ => 1) [t] := by
    intro t h0 h1
    refine ⟨by rw [hads]; rfl, fun c hc => ?_, fun s hs => ?_⟩
    · rw [List.mem_singleton] at hc
      rw [hc]
      exact ⟨h0, h1⟩
    · rw [hsites, List.mem_singleton] at hs
      have := siteSum_map (oneStepModel 2).net (fun _ => t) s
      rw [hads] at this
      rw [show [t] = [str! "CO_s"].map (fun _ => t) from rfl, this, hs,
        show [str! "CO_s"].filter (fun a => OnSite a (str! "*_s")) = [str! "CO_s"] by decide]
      simpa using h1
  refine ⟨oneStep_ready 2, fun h kept o c hh => (nomatch hh), fun c x err _ hx => ?_, ?_⟩
  · have : (x, err) = ([3 / 4], 0) := List.mem_singleton.mp hx
    rw [(Prod.mk.inj this).1]
    exact hph _ (by norm_num) (by norm_num)
  · have hc : constrainCoverages (oneStepModel 2) [(0 : ℝ)] = .ok [0] :=
      C24_physical_unchanged _ _ _ _ (oneStep_ready 2) _ (hph 0 le_rfl zero_le_one)
    have r0 : getResidual (oneStepModel 2) ([3], [2]) [0] = .ok 6 := by
      rw [C132_adsorption _ _ _ _ (by norm_num)]
      norm_num
    have r1 : getResidual (oneStepModel 2) ([3], [2]) [3 / 4] = .ok 0 := by
      rw [C132_adsorption _ _ _ _ (by norm_num)]
      norm_num
    refine ⟨⟨some [3 / 4], some 0, true, [], [.coverages [3 / 4], .error 0, .guess [0]]⟩, ?_⟩
    unfold getSteady
    dsimp only [bind, Except.bind, pure, Except.pure]
    rw [hc]
    have n1 : ¬ (6 : ℝ) ≤ 10⁻¹ := by norm_num
    have n2 : ¬ (3 / 4 : ℝ) < 0 := by norm_num
    simp [outerLoop, outerBody, directEnv, r0, r1, n1, n2, innerLoop, finalizeAll, finish, allCalls]

/-! ### a network whose search leaves the surface -/

/-- The greatest number with `b` binary digits below `acc` whose square is at most `n`. -/
def sqrtBits (n : Nat) : Nat → Nat → Nat
  | 0, acc => acc
  | b + 1, acc => if (acc + 2 ^ b) * (acc + 2 ^ b) ≤ n then sqrtBits n b (acc + 2 ^ b) else sqrtBits n b acc

theorem sqrtBits_spec (n : Nat) : ∀ b acc, acc * acc ≤ n → n < (acc + 2 ^ b) * (acc + 2 ^ b) →
    sqrtBits n b acc * sqrtBits n b acc ≤ n ∧ n < (sqrtBits n b acc + 1) * (sqrtBits n b acc + 1)
  | 0, acc, h1, h2 => ⟨h1, by simpa [sqrtBits] using h2⟩
  | b + 1, acc, h1, h2 => by
    unfold sqrtBits
    split
    · rename_i h
      exact sqrtBits_spec n b _ h (by rw [Nat.pow_succ] at h2; rwa [Nat.add_assoc, ← Nat.mul_two])
    · rename_i h
      exact sqrtBits_spec n b _ h1 (Nat.lt_of_not_le h)

/-- The Euclidean norm of numbers, rounded down to thirty decimals. -/
def norm30 (l : List ℚ) : ℚ :=
  let n := ((l.map fun a => a ^ 2).sum * 10 ^ 60).floor.toNat
  sqrtBits n (n.log2 / 2 + 1) 0 / 10 ^ 30

/-- It is the norm up to the thirtieth decimal. -/
theorem norm30_spec (l : List ℚ) :
    (norm30 l : ℝ) ≤ euclid (l.map fun q : ℚ => (q : ℝ)) ∧ euclid (l.map fun q : ℚ => (q : ℝ)) < norm30 l + 1 / 10 ^ 30 := by
  unfold norm30
  dsimp only
  have hs0 : 0 ≤ (l.map fun a => a ^ 2).sum := List.sum_nonneg (by
    intro x hx
    obtain ⟨a, -, rfl⟩ := List.mem_map.mp hx
    positivity)
  have hcast : ((l.map fun q : ℚ => (q : ℝ)).map (· ^ 2)).sum = (((l.map fun a => a ^ 2).sum : ℚ) : ℝ) := by
    induction l with
    | nil => simp
    | cons a l ih =>
      have h0 : 0 ≤ (l.map fun a => a ^ 2).sum := List.sum_nonneg (by
        intro x hx
        obtain ⟨a, -, rfl⟩ := List.mem_map.mp hx
        positivity)
      simp only [List.map_cons, List.sum_cons]
      rw [ih h0]
      push_cast
      ring
  unfold euclid
  rw [hcast]
  generalize (l.map fun a => a ^ 2).sum = S at hs0
  generalize hn : (S * 10 ^ 60).floor.toNat = n
  have hfl : (0 : ℤ) ≤ (S * 10 ^ 60).floor := by
    rw [Rat.le_floor_iff]
    push_cast
    positivity
  have hnz : ((n : ℕ) : ℤ) = (S * 10 ^ 60).floor := by rw [← hn, Int.toNat_of_nonneg hfl]
  have hle : (n : ℚ) ≤ S * 10 ^ 60 := by
    have : ((S * 10 ^ 60).floor : ℚ) ≤ S * 10 ^ 60 := Rat.floor_le _
    rw [← hnz] at this
    exact_mod_cast this
  have hlt : S * 10 ^ 60 < n + 1 := by
    have : S * 10 ^ 60 < (S * 10 ^ 60).floor + 1 := by exact_mod_cast Rat.lt_floor_add_one _
    rw [← hnz] at this
    exact_mod_cast this
  obtain ⟨h1, h2⟩ := sqrtBits_spec n (n.log2 / 2 + 1) 0 (Nat.zero_le _) (by
    rw [Nat.zero_add, ← Nat.pow_add]
    exact (Nat.lt_log2_self).trans_le (Nat.pow_le_pow_right (by norm_num) (by omega)))
  generalize sqrtBits n (n.log2 / 2 + 1) 0 = r at h1 h2
  have hleR : (n : ℝ) ≤ (S : ℝ) * 10 ^ 60 := by exact_mod_cast hle
  have hltR : (S : ℝ) * 10 ^ 60 < n + 1 := by exact_mod_cast hlt
  have h1R : (r : ℝ) * r ≤ n := by exact_mod_cast h1
  have h2R : (n : ℝ) + 1 ≤ (r + 1) * (r + 1) := by exact_mod_cast h2
  have hS0 : (0 : ℝ) ≤ S := by exact_mod_cast hs0
  push_cast
  constructor
  · apply Real.le_sqrt_of_sq_le
    rw [div_pow, div_le_iff₀ (by positivity)]
    nlinarith
  · rw [← add_div, Real.sqrt_lt' (by positivity), div_pow, lt_div_iff₀ (by positivity)]
    nlinarith

def overRxns : List Str := [str! "CO_g + *_s -> CO_s", str! "O_g + *_s -> O_s", str! "CO_s + O_s -> CO2_g + 2*_s"]

/-- Adsorption of carbon monoxide and of oxygen atoms and the reaction between them, all pressures one. -/
def overMF : MFOwner ℚ :=
  ⟨overRxns, netOf overRxns, [(str! "*_s", 1)], [(str! "CO_g", 1), (str! "O_g", 1), (str! "CO2_g", 1)], []⟩

/-- The search with `MDNewton` and the Euclidean norm to thirty decimals, without a hybrid method, for the tolerance of the library. -/
def overSearch (c : List ℚ) : Option (SolveState ℚ × Outcome ℚ) :=
  getSteady (mdEnv overMF ([1, 4, 4], [1, 1, 10]) ([1, 4, 4], [1, 1, 10]) exSolve2 norm30 10 10 (1 / 10 ^ 8) 100 none [] false)
    (constrainCoverages overMF) 1 (some c) exFresh

/-- The outcome is coverages with the property. -/
def returnsWith (good : List ℚ → Bool) : Option (SolveState ℚ × Outcome ℚ) → Bool
  | some (_, .returned x) => good x
  | _ => false

theorem returnsWith_some {good : List ℚ → Bool} {r : Option (SolveState ℚ × Outcome ℚ)} (h : returnsWith good r = true) :
    ∃ st' x, r = some (st', .returned x) ∧ good x = true := by
  unfold returnsWith at h
  split at h
  · exact ⟨_, _, rfl, h⟩
  · cases h

/-- More than seven fifths of the sites are covered and the second reaction runs forward at a negative rate. -/
def overBad (x : List ℚ) : Bool :=
  decide (7 / 5 < x.sum) && (match getRates overMF ([1, 4, 4], [1, 1, 10]) x with
    | .ok ([_, r, _], _) => decide (r < 0)
    | _ => false)

theorem overBad_spec {x : List ℚ} (h : overBad x = true) :
    7 / 5 < x.sum ∧ ∃ a r b rr, getRates overMF ([1, 4, 4], [1, 1, 10]) x = .ok ([a, r, b], rr) ∧ r < 0 := by
  unfold overBad at h
  rw [Bool.and_eq_true] at h
  refine ⟨of_decide_eq_true h.1, ?_⟩
  have h2 := h.2
  split at h2
  · rename_i a r b rr he
    exact ⟨a, r, b, rr, he, of_decide_eq_true h2⟩
  · cases h2

/-- **C133**, refuted: positive rate constants, the surface covered with carbon monoxide as a guess, `MDNewton`, no hybrid method. The search
returns coverages that add up to more than seven fifths of the sites, at which oxygen adsorbs at a negative rate. -/
theorem C133_overfull_refuted : ∃ st' x, overSearch [1, 0] = some (st', .returned x) ∧ 7 / 5 < x.sum ∧
    ∃ a r b rr, getRates overMF ([1, 4, 4], [1, 1, 10]) x = .ok ([a, r, b], rr) ∧ r < 0 := by
  obtain ⟨st', x, h1, h2⟩ := returnsWith_some (show returnsWith overBad (overSearch [1, 0]) = true by decide +kernel)
  exact ⟨st', x, h1, overBad_spec h2⟩

/-- The same search with `ConstrainedNewton`; the step size is one sixteenth at first and then one. -/
def overConstrained (tol : ℚ) (c : List ℚ) : Option (SolveState ℚ × Outcome ℚ) :=
  getSteady { mdEnv overMF ([1, 4, 4], [1, 1, 10]) ([1, 4, 4], [1, 1, 10]) exSolve2 norm30 10 10 tol 100 none [] false with
    newton := fun c => let r := conNewton (ssProblem overMF ([1, 4, 4], [1, 1, 10]) exSolve2 norm30) (constrainCoverages overMF) (fun i => .ok (if i = 1 then 1 / 16 else 1)) 10 c
                       (r.1.map fun y => (y.x, y.norm), r.2) }
    (constrainCoverages overMF) 1 (some c) exFresh

/-- **C133**, refuted: the same for `ConstrainedNewton`, which does not constrain its first five points, for some step sizes (those of
the golden section search are not modelled). -/
theorem C133_constrained_refuted : ∃ st' x, overConstrained (1 / 10000) [1, 0] = some (st', .returned x) ∧ 7 / 5 < x.sum ∧
    ∃ a r b rr, getRates overMF ([1, 4, 4], [1, 1, 10]) x = .ok ([a, r, b], rr) ∧ r < 0 := by
  obtain ⟨st', x, h1, h2⟩ := returnsWith_some (show returnsWith overBad (overConstrained (1 / 10000) [1, 0]) = true by decide +kernel)
  exact ⟨st', x, h1, overBad_spec h2⟩

/-- From another guess the search of the same model ends on the surface. -/
example : returnsWith (fun x => decide (x.sum < 1) && x.all fun c => decide (0 < c)) (overSearch [1 / 4, 1 / 4]) = true := by
  decide +kernel

end Verif
