import Verif.Model.MkmScript
import Verif.Props.Hybrid
import Verif.Props.Run
import Verif.Props.Archive
import Verif.Lemmas.Sort
/-
Property C104: the script that runs a model in the current directory.
-/
namespace Verif
open Dict Set
set_option linter.unusedSectionVars false

/-! ### The setup file -/

/-- C104: the setup file is one of the files of the directory, its name ends in `.mkm`, and no other such file comes after it. -/
theorem C104_setup (names : List Str) (h : ∃ n ∈ names, isSetupName n = true) :
    setupName names ∈ names ∧ (str! ".mkm") <:+ setupName names ∧
    ∀ n ∈ names, (str! ".mkm") <:+ n → n.head? ≠ some '.' → n = setupName names ∨ strLt n (setupName names) = true := by
  obtain ⟨n0, h0, h1⟩ := h
  have hm : n0 ∈ sortedSet (names.filter isSetupName) := mem_sortedSet.mpr (List.mem_filter.mpr ⟨h0, h1⟩)
  have hs := sorted_sortedSet (names.filter isSetupName)
  have hmem : ∀ n, n ∈ sortedSet (names.filter isSetupName) ↔ n ∈ names ∧ isSetupName n = true := by
    intro n; rw [mem_sortedSet, List.mem_filter]
  unfold setupName
  generalize sortedSet (names.filter isSetupName) = l at *
  cases hl : l.getLast? with
  | none => rw [List.getLast?_eq_none_iff] at hl; subst hl; cases hm
  | some m =>
    dsimp only
    have hml : m ∈ l := List.mem_of_getLast? hl
    have hm2 := (hmem m).mp hml
    refine ⟨hm2.1, ?_, ?_⟩
    · have := hm2.2
      unfold isSetupName at this
      rw [Bool.and_eq_true] at this
      exact List.isSuffixOf_iff_suffix.mp this.1
    · intro n hn h2 h3
      have : n ∈ l := (hmem n).mpr ⟨hn, by
        unfold isSetupName
        rw [Bool.and_eq_true]
        exact ⟨List.isSuffixOf_iff_suffix.mpr h2, by simpa using h3⟩⟩
      obtain ⟨l', rfl⟩ := List.getLast?_eq_some_iff.mp hl
      rcases List.mem_append.mp this with h | h
      · right
        exact (List.pairwise_append.mp hs).2.2 n h m (by simp)
      · left; simpa using h

example : isSetupName (str! "co.mkm") = true ∧ isSetupName (str! "co.mkm~") = false ∧
    setupName [str! "run.py", str! "b.mkm", str! "a.mkm", str! "z.txt"] = str! "b.mkm" := by decide

/-- C104 (refuted): that the script stops if there is no setup file. The status looked at is that of `tail`; the file that is
then opened has the message of `ls` as its name. -/
theorem C104_no_setup_refuted (names : List Str) (h : ∀ n ∈ names, isSetupName n = false) :
    setupName names = str! "ls: cannot access '*.mkm': No such file or directory" := by
  unfold setupName
  have : names.filter isSetupName = [] := List.filter_eq_nil_iff.mpr fun n hn => by simp [h n hn]
  rw [this]
  rfl

example : ∀ n ∈ [str! "run.py", str! ".mkm"], isSetupName n = false := by decide

/-! ### The trajectory -/

theorem everyNth_map {β γ : Type} (f : β → γ) (n : Nat) : ∀ (k : Nat) (l : List β), everyNth n k (l.map f) = (everyNth n k l).map f
  | _, [] => rfl
  | k, x :: l => by
    rw [List.map_cons, everyNth_cons, everyNth_cons, everyNth_map f n (k + 1) l, List.map_append]
    split <;> rfl

theorem everyNth_range {β : Type} (g : Nat → β) (n : Nat) : ∀ (N k : Nat),
    everyNth n k ((List.range' k N).map g) = ((List.range' k N).filter fun i => i % n = 0).map g
  | 0, _ => rfl
  | N + 1, k => by
    rw [List.range'_succ, List.map_cons, everyNth_cons, everyNth_range g n N (k + 1), List.filter_cons]
    by_cases h : k % n = 0 <;> simp [h]

section
variable {σ : Type}

theorem path_samples {o : MFOwner ℝ} {total P C : Str → ℝ} {kf kr : List ℝ} {κf κr : Str → ℝ} (h : FlowOk o total P C kf kr κf κr)
    {I : Integrator ℝ σ} {start : List ℝ → ℝ → σ} (hI : Exact o (kf, kr) I start) {tEnd step : ℝ} (hstep : 0 ≤ step)
    {w : ℝ → Str → ℝ} (hw : ∀ T, Follows o (kf, kr) T w) {s : σ} {path : List σ} (hp : OdePath I tEnd step s path) :
    ∀ j : Nat, I.time s = j * step → I.cvgs s = o.net.ads.map (w (j * step)) →
      path.map (fun s => (I.time s, I.cvgs s)) =
        (List.range' (j + 1) path.length).map fun k : Nat => ((k : ℝ) * step, o.net.ads.map (w (k * step))) := by
  induction hp with
  | stop _ => intro j _ _; rfl
  | @next s s' l h1 h2 _ ih =>
    intro j e1 e2
    have t' : I.time s' = ((j + 1 : Nat) : ℝ) * step := by
      rw [hI.arr.arrives _ _ _ h2, e1]; push_cast; ring
    have c' : I.cvgs s' = o.net.ads.map (w (((j + 1 : Nat) : ℝ) * step)) := by
      rw [steps_solution h hI hstep hw (.next h2 .zero) _ (by positivity) e2]
      congr 2; push_cast; ring
    rw [List.map_cons, ih (j + 1) t' c', List.length_cons, List.range'_succ, List.map_cons, t', c']

theorem solveOde_mono {K : Type} [Field K] [LinearOrder K] [IsStrictOrderedRing K] {I : Integrator K σ} {tEnd step : K} {interval : Nat} {output : Bool} {f g : Nat} {s : σ}
    {r r' : Py (K × List K) × Option (List (Stmt K))} (h : solveOde I tEnd step interval output f s = some r)
    (h' : solveOde I tEnd step interval output g s = some r') : r = r' := by
  unfold solveOde at h h'
  cases hf : odeLoop I tEnd step interval output f s ⟨odeHeader, [], [], 0, 0⟩ with
  | none => rw [hf] at h; cases h
  | some p =>
    cases hg : odeLoop I tEnd step interval output g s ⟨odeHeader, [], [], 0, 0⟩ with
    | none => rw [hg] at h'; cases h'
    | some q =>
      have := odeLoop_mono _ _ _ _ _ _ hf hg
      subst this
      rw [hf] at h
      rw [hg] at h'
      exact Option.some.inj (h.symm.trans h')

/-- The trajectory file lists the times `k * step` and the coverages `w` at these times, for those `k` from one to `N` that are
multiples of `interval`. -/
def Lists (o : MFOwner ℝ) (w : ℝ → Str → ℝ) (step : ℝ) (interval N : Nat) (f : List (Stmt ℝ)) : Prop :=
  ∃ env, execFile f = .ok env ∧
    get? env (str! "times") = some (((List.range' 1 N).filter fun k => k % interval = 0).map fun k => .num (k * step)) ∧
    get? env (str! "coverages") = some (((List.range' 1 N).filter fun k => k % interval = 0).map fun k => .nums (o.net.ads.map (w (k * step))))

/-- The surface the script starts with: the Boltzmann coverages, or the empty surface without absolute energies. -/
def ScriptStart (nads : Nat) (boltz : Py (List ℝ)) (c : List ℝ) : Prop :=
  boltz = .ok c ∨ boltz = .error .IOError ∧ c = List.replicate nads 0

/-- C104: the script integrates the coverage equations from its start up to the end time given, writes the trajectory, and
runs the model from the coverages at the end time, whatever is archived. `N` is the number of steps.
Partial: the steps must divide the time, for networks where the coverage equations are right (C26, C86), with an exact
integrator that does not fail, and without rounding. -/
theorem C104_guess_partial (o : MFOwner ℝ) (total P C : Str → ℝ) (kf kr : List ℝ) (κf κr : Str → ℝ) (h : FlowOk o total P C kf kr κf κr)
    (hc : Conditions o total P C kf kr) (hne : o.net.ads ≠ []) (I : Integrator ℝ σ) (start : List ℝ → ℝ → σ) (hI : Exact o (kf, kr) I start)
    (hT : Integrates o total I) (interval : Nat) (hi : interval ≠ 0) (a : MkmArgs ℝ) (N : Nat) (hstep : 0 < a.odeInterval)
    (hN : a.odeEnd = N * a.odeInterval) (boltz : Py (List ℝ)) (c : List ℝ) (hs : ScriptStart o.net.ads.length boltz c)
    (hp : Physical o.net total c) {β : Type} (load : List β → Py (Dict Str (List ℝ))) (data : FileContent β) (env : RunEnv ℝ) (st : RunState ℝ) :
    ∃ w file, From o (kf, kr) c w ∧ (∀ t, 0 ≤ t → Physical o.net total (o.net.ads.map (w t))) ∧
      (a.odeOutput = false → file = none) ∧ (a.odeOutput = true → ∃ f, file = some f ∧ Lists o w a.odeInterval interval N f) ∧
      (∃ fuel, mkmScript a I start o.net.ads.length interval boltz load data fuel env st =
        (runModel env (.ok (.direct (.given (o.net.ads.map (w a.odeEnd))))) (if a.calcXRC then some (some a.product) else none) st).map
          fun r => ⟨r.1, file, [str! "solve_ode"], r.2⟩) ∧
      (∀ fuel r, mkmScript a I start o.net.ads.length interval boltz load data fuel env st = some r →
        (runModel env (.ok (.direct (.given (o.net.ads.map (w a.odeEnd))))) (if a.calcXRC then some (some a.product) else none) st).map
          (fun r => (⟨r.1, file, [str! "solve_ode"], r.2⟩ : ScriptEnd ℝ)) = some r) := by
  obtain ⟨v0, hv0, hst⟩ := state_of_physical h.ready hc hp
  obtain ⟨w, hw0, hw⟩ := C93_exists_partial o total P C kf kr κf κr h v0 hst
  have hst' : PhysicalState o total P C (w 0) kf kr := by
    refine ⟨hst.kf, hst.kr, hst.gas, hst.liq, fun x hx => ?_⟩
    rw [coverage_congr hw0]
    exact hst.theta x hx
  have hph : ∀ t, 0 ≤ t → Physical o.net total (o.net.ads.map (w t)) := by
    intro t ht
    obtain ⟨p1, p2⟩ := C93_physical_partial o total P C kf kr κf κr h t w (hw t) hst' t ⟨ht, le_refl _⟩
    exact physical_of_state h.ready hc p1 p2
  have e0 : I.cvgs (start c 0) = o.net.ads.map (w 0) := by
    rw [hI.arr.cvgs, hv0, map_eq_iff]; exact fun a ha => (hw0 a ha).symm
  obtain ⟨path, hpath⟩ := path_exists h hI hT hstep hw hph N (start c 0) 0 (le_refl _) e0
  have hlen := path_length hI.arr hstep hpath
  rw [hI.arr.time, zero_add, ← hN] at hpath
  obtain ⟨fuel, file, hf⟩ := C64_returns (output := a.odeOutput) hi hpath
  have hlast : I.cvgs (path.getLastD (start c 0)) = o.net.ads.map (w a.odeEnd) := by
    rw [steps_solution h hI hstep.le hw (steps_of_path hpath) 0 (le_refl _) e0, hlen, zero_add, hN]
  rw [hlast] at hf
  have hin : odeInitial o.net.ads.length boltz none = .ok c := by
    rcases hs with rfl | ⟨rfl, rfl⟩ <;> rfl
  have hplan : runPlan load o.net.ads.length (.seq (o.net.ads.map (w a.odeEnd))) false false data =
      (.ok (.direct (.given (o.net.ads.map (w a.odeEnd)))) : Py (Plan ℝ (List ℝ))) := by
    have := C70_given load o.net.ads.length (o.net.ads.map (w a.odeEnd)) (by simpa using hne) false false data
    rw [if_pos (by simp)] at this
    exact this
  refine ⟨w, file, ⟨hw, ?_⟩, hph, ?_, ?_, ⟨fuel, ?_⟩, ?_⟩
  · rw [hv0, map_eq_iff]; exact hw0
  · obtain ⟨-, -, -, -, k, -⟩ := C64_trajectory hf
    exact k
  · intro ho
    obtain ⟨path', q1, -, -, -, k⟩ := C64_trajectory hf
    obtain ⟨f, env', f1, f2, f3, f4⟩ := k ho
    have hlen' : path'.length = N := by
      apply path_length hI.arr hstep (s := start c 0)
      rw [hI.arr.time, zero_add, ← hN]; exact q1
    have hsam := path_samples h hI hstep.le hw q1 0 (by rw [hI.arr.time]; simp) (by rw [e0]; simp)
    rw [hlen'] at hsam
    have hev : (everyNth interval 1 path').map (fun s => (I.time s, I.cvgs s)) =
        ((List.range' 1 N).filter fun k => k % interval = 0).map fun k : Nat => ((k : ℝ) * a.odeInterval, o.net.ads.map (w (k * a.odeInterval))) := by
      rw [← everyNth_map, hsam, everyNth_range]
    refine ⟨f, f1, env', f2, ?_, ?_⟩
    · rw [f3]
      have := congrArg (List.map fun p : ℝ × List ℝ => Elem.num p.1) hev
      simpa [List.map_map, Function.comp_def] using this
    · rw [f4]
      have := congrArg (List.map fun p : ℝ × List ℝ => Elem.nums p.2) hev
      simpa [List.map_map, Function.comp_def] using this
  · unfold mkmScript
    rw [hin]
    dsimp only
    rw [hf]
    dsimp only
    rw [hplan]
  · intro fuel' r hr
    unfold mkmScript at hr
    rw [hin] at hr
    dsimp only at hr
    cases hf' : solveOde I a.odeEnd a.odeInterval interval a.odeOutput fuel' (start c 0) with
    | none => rw [hf'] at hr; cases hr
    | some q =>
      have := solveOde_mono hf hf'
      subst this
      rw [hf'] at hr
      dsimp only at hr
      rw [hplan] at hr
      exact hr

/-- C104: if at the end time the surface is close enough to a regular steady state, the script reports coverages close to it,
steady to within the tolerance; it ends without error, with all results belonging to these coverages, unless a forward rate
vanishes there. -/
theorem C104_found_partial (o : MFOwner ℝ) (total P C : Str → ℝ) (kf kr : List ℝ) (κf κr : Str → ℝ) (h : FlowOk o total P C kf kr κf κr)
    (hc : Conditions o total P C kf kr) (hne : o.net.ads ≠ [])
    (hsim : ∀ states ∈ o.net.rxns, ∀ fs, (states.head? = some fs ∨ states.getLast? = some fs) → SimpleState fs)
    (hkf : kf.length = o.rxns.length) (hkr : kr.length = o.rxns.length)
    (hself : ∀ a ∈ o.net.ads, ∀ b ∈ o.net.ads, ∀ s, OnSite b s → ∀ states ∈ o.net.rxns, NoSelfSite a b s states)
    (solve : List (List ℝ) → List ℝ → Py (List ℝ)) (hsolve : SolvesRight solve) (hreg : SolvesRegular solve)
    (I : Integrator ℝ σ) (start : List ℝ → ℝ → σ) (hI : Exact o (kf, kr) I start) (hT : Integrates o total I)
    (interval : Nat) (hi : interval ≠ 0) (a : MkmArgs ℝ) (N : Nat) (hstep : 0 < a.odeInterval)
    (hN : a.odeEnd = N * a.odeInterval) (hx : a.calcXRC = false) (boltz : Py (List ℝ)) (c : List ℝ) (hs : ScriptStart o.net.ads.length boltz c)
    (hp : Physical o.net total c)
    (xs : List ℝ) (hl : xs.length = o.net.ads.length) (hpos : ∀ v ∈ xs, 0 < v)
    (fx : List ℝ) (hroot : steadyStateFunction o (kf, kr) xs = .ok fx) (hzero : ∀ v ∈ fx, v = 0)
    (J : List (List ℝ)) (hJ : analyticalJacobian o (kf, kr) xs = .ok J)
    (hinj : ∀ d, d.length = xs.length → (∀ v ∈ matVec J d, v = 0) → ∀ v ∈ d, v = 0)
    (tol η : ℝ) (htol : 0 < tol) (hη : 0 < η) :
    ∃ δ > 0, ∃ M : ℕ, (∀ w, From o (kf, kr) c w → NearTo δ (o.net.ads.map (w a.odeEnd)) xs) →
      ∀ {β : Type} (load : List β → Py (Dict Str (List ℝ))) (data : FileContent β) (env : RunEnv ℝ) (st : RunState ℝ) m n (maxIter : Int) hybrid plugins,
        0 < m → M ≤ n → (M : Int) ≤ maxIter → env.o = o → env.k = (kf, kr) → 0 < env.rounds → env.constrain = constrainCoverages o →
        env.search = mdEnv o (kf, kr) (kf, kr) solve euclid m n tol maxIter hybrid plugins false →
        ∃ fuel r x e, mkmScript a I start o.net.ads.length interval boltz load data fuel env st = some r ∧
          r.state.rep.coverages = some x ∧ NearTo η x xs ∧ getResidual o (kf, kr) x = .ok e ∧ e ≤ tol ∧
          ((∀ rates, getRates o (kf, kr) x = .ok rates → ∀ v ∈ rates.1, v ≠ 0) → r.result = .ok () ∧ Complete env r.state.rep) := by
  obtain ⟨δ, hδ, M, hM⟩ := search_finds o total P C h.ready h.clean hsim kf kr hkf hkr hself solve hsolve hreg hne xs hl hpos fx
    hroot hzero J hJ hinj tol η htol hη
  refine ⟨δ, hδ, M, ?_⟩
  intro hnear β load data env st m n maxIter hybrid plugins hm hMn hMi eo ek er ec es
  obtain ⟨w, file, w1, w2, -, -, ⟨fuel, hf⟩, -⟩ := C104_guess_partial o total P C kf kr κf κr h hc hne I start hI hT interval hi a N hstep hN
    boltz c hs hp load data env st
  have hphys := w2 a.odeEnd (by rw [hN]; positivity)
  obtain ⟨fu, hfu⟩ : ∃ fu, env.rounds = fu + 1 := ⟨env.rounds - 1, by omega⟩
  obtain ⟨s', x, x1, x2, x3⟩ := hM _ hphys (hnear w w1).2 m n maxIter hybrid plugins { st.solver with converged := false } fu 1 hm hMn hMi
  have hg : getSteady env.search env.constrain env.rounds (some (o.net.ads.map (w a.odeEnd))) st.solver = some (s', .returned x) := by
    rw [ec, getSteady_some _ (C24_physical_unchanged o total P C h.ready _ hphys), es, hfu]
    exact x1
  obtain ⟨⟨e, r1, r2⟩, -⟩ := C31_residual env.search env.constrain env.rounds _ st.solver s' x hg
  rw [es] at r1 r2
  obtain ⟨e', he'⟩ := getSteady_error hg
  have hfind : findCoverages env (.direct (.given (o.net.ads.map (w a.odeEnd)))) st.solver = some (s', .returned x) := hg
  have hrun : ∃ st1 res, runModel env (.ok (.direct (.given (o.net.ads.map (w a.odeEnd))))) none st = some (st1, res) ∧
      reportResults env (some x) { st with solver := s' } = (st1, res) := by
    cases hr : reportResults env (some x) { st with solver := s' } with
    | mk st1 res =>
      refine ⟨st1, res, ?_, rfl⟩
      unfold runModel
      dsimp only
      rw [hfind]
      dsimp only
      rw [hr]
      cases res <;> rfl
  obtain ⟨st1, res, q1, q2⟩ := hrun
  have hcov : st1.rep.coverages = some x := by
    have := congrArg (fun p => p.1.rep.coverages) q2
    dsimp only at this
    rw [← this]
    unfold reportResults
    dsimp only
    split
    · rfl
    · split
      · rfl
      · split
        · rfl
        · split <;> rfl
  rw [hx] at hf
  refine ⟨fuel, ⟨st1, file, [str! "solve_ode"], res⟩, x, e, ?_, hcov, ⟨x2, x3⟩, r1, r2, ?_⟩
  · rw [hf]
    exact congrArg (Option.map _) q1
  · intro hnz
    have hpar : parseNetwork env.o.rxns = .ok env.o.net := by rw [eo]; exact h.ready.parse
    obtain ⟨v, rfl⟩ := tuple_as_function (ads_nodup h.ready.parse) (x2.trans hl)
    obtain ⟨rfs, rrs, g1, g2, g3, -⟩ := getRates_ok h.ready h.clean v kf kr κf κr h.kf h.kr
    have hnet : getNetRates o (kf, kr) (o.net.ads.map v) = .ok (List.zipWith (· - ·) rfs rrs) := by
      unfold getNetRates; rw [g1]; rfl
    have htof := (C69_turnover o (kf, kr) _ _ h.ready.parse hnet (by simp [g2, g3])).1
    have hrev : ∃ l, Verif.reversibilities rfs rrs = .ok l := by
      unfold Verif.reversibilities
      rw [if_neg (by simp [g2, g3])]
      apply mapM_ok_exists
      rintro ⟨p, q⟩ hpq
      have hp0 : p ≠ 0 := hnz _ g1 p (List.of_mem_zip hpq).1
      exact ⟨q / p, by dsimp only; rw [if_neg hp0]⟩
    obtain ⟨l, hl'⟩ := hrev
    have hres : res = .ok () := by
      have := congrArg Prod.snd q2
      dsimp only at this
      rw [← this]
      unfold reportResults
      dsimp only
      rw [eo, ek, g1]
      dsimp only
      rw [htof]
      dsimp only
      rw [hl']
      dsimp only
      rw [he']
    refine ⟨hres, ?_⟩
    rw [hres] at q1
    exact ((C72_run env hpar _ none st st1 _ q1).2.2 rfl).2.2

/-- C104: the surface the script starts with is physical if every site type has a total of one, or without absolute energies. -/
theorem C104_start_partial (o : MFOwner ℝ) (total P C : Str → ℝ) (kf kr : List ℝ)
    (hc : Conditions o total P C kf kr) (hne : o.net.ads ≠ []) (h1 : ∀ s ∈ o.net.sites, total s = 1)
    (E : Option (Dict Str ℝ)) (T : ℝ) (hT : 0 < T) (hE : ∀ d, E = some d → ∀ x ∈ o.net.ads ++ o.net.sites, ∃ e, get? d x = some e) :
    ∃ c, ScriptStart o.net.ads.length (boltzmannCoverages o.net E T true) c ∧ Physical o.net total c := by
  cases E with
  | none => exact ⟨_, .inr ⟨rfl, rfl⟩, zeros_physical hc⟩
  | some d =>
    have hG : ∀ x ∈ o.net.ads ++ o.net.sites, get? d x = some ((get? d x).getD 0) := by
      intro x hx
      obtain ⟨e, he⟩ := hE d rfl x hx
      rw [he]; rfl
    obtain ⟨u, v, -, h2, h3, -, -, h4, -⟩ := C62_distribution o.net d (fun x => (get? d x).getD 0) T hT hne hG
    refine ⟨o.net.ads.map v, .inl h2, ?_⟩
    have hnn : ∀ l : List Str, 0 ≤ (l.map v).sum := fun l => List.sum_nonneg (by simpa using fun a _ => (h3 a).2.le)
    have hle : ∀ l : List Str, l.Sublist o.net.ads → (l.map v).sum ≤ 1 := by
      intro l hl
      have h5 : (l.map v).sum ≤ (o.net.ads.map v).sum :=
        (hl.map v).sum_le_sum (by simpa using fun a _ => (h3 a).2.le)
      linarith [hnn o.net.sites]
    refine ⟨by simp, ?_, ?_⟩
    · intro x hx
      obtain ⟨b, hb, rfl⟩ := List.mem_map.mp hx
      refine ⟨(h3 b).2.le, ?_⟩
      simpa using hle [b] (List.singleton_sublist.mpr hb)
    · intro s hs
      rw [siteSum_map, h1 s hs]
      exact hle _ List.filter_sublist

end

/-- C104 (refuted) for smaller totals: the Boltzmann coverages ignore them. With equal energies half of the sites are
covered at the start, also if there is only a quarter. -/
theorem C104_start_refuted : ∃ c, boltzmannCoverages exHalf.net (some [(str! "CO_s", 0), (str! "*_s", 0)]) 300 true = .ok c ∧
    ¬ Physical exHalf.net (fun _ => (1 / 4 : ℝ)) c := by
  have hw : ∀ x ∈ [str! "CO_s", str! "*_s"], boltzmannWeight [(str! "CO_s", 0), (str! "*_s", 0)] 300 x = .ok 1 := by
    intro x hx
    have hd : dictGet ([(str! "CO_s", 0), (str! "*_s", 0)] : Dict Str ℝ) x = .ok 0 := by
      rcases List.mem_pair.mp hx with rfl | rfl <;> rfl
    unfold boltzmannWeight
    rw [hd]
    show (if _ then _ else _) = _
    rw [if_neg (by have := kBeV_pos; positivity)]
    norm_num
    rfl
  have hb : boltzmannCoverages exHalf.net (some [(str! "CO_s", 0), (str! "*_s", 0)]) 300 true = .ok [1 / 2] := by
    unfold boltzmannCoverages
    dsimp only
    rw [if_pos rfl, show exHalf.net.ads ++ exHalf.net.sites = [str! "CO_s", str! "*_s"] from rfl, exHalf_ads,
      mapM_cons_ok (hw _ (by simp)) (mapM_cons_ok (hw _ (by simp)) rfl), mapM_cons_ok (hw _ (by simp)) rfl]
    show (.ok _ : Py (List ℝ)) = _
    norm_num
  refine ⟨_, hb, fun hp => ?_⟩
  have := hp.sites (str! "*_s") (by decide)
  have e : ∀ t : ℝ, siteSum exHalf.net [t] (str! "*_s") = [t].sum := fun _ => rfl
  rw [e] at this
  norm_num at this

/-- C104 (refuted): that only the integration is done on request. The argument is not known to `run`, which warns and goes on. -/
theorem C104_ode_only_refuted {K σ β : Type} [Field K] [LinearOrder K] (a : MkmArgs K) (b : Bool) (I : Integrator K σ) (start : List K → K → σ)
    (nads interval : Nat) (boltz : Py (List K)) (load : List β → Py (Dict Str (List K))) (data : FileContent β) (fuel : Nat) (env : RunEnv K)
    (st : RunState K) :
    mkmScript { a with odeOnly := b } I start nads interval boltz load data fuel env st = mkmScript a I start nads interval boltz load data fuel env st ∧
    ∀ r, mkmScript a I start nads interval boltz load data fuel env st = some r → r.result = .ok () →
      r.warnings = [str! "solve_ode"] ∧ ∃ plan st', runModel env (.ok plan) (if a.calcXRC then some (some a.product) else none) st = some (st', .ok ()) ∧ r.state = st' := by
  refine ⟨rfl, fun r hr hok => ?_⟩
  unfold mkmScript at hr
  cases h1 : odeInitial nads boltz none with
  | error e => rw [h1] at hr; cases hr; cases hok
  | ok c =>
    rw [h1] at hr
    dsimp only at hr
    cases h2 : solveOde I a.odeEnd a.odeInterval interval a.odeOutput fuel (start c 0) with
    | none => rw [h2] at hr; cases hr
    | some q =>
      obtain ⟨q, f⟩ := q
      rw [h2] at hr
      cases q with
      | error e => cases hr; cases hok
      | ok p =>
        dsimp only at hr
        obtain ⟨⟨st', res⟩, h3, rfl⟩ := Option.map_eq_some_iff.mp hr
        refine ⟨rfl, ?_⟩
        cases h4 : runPlan load nads (.seq p.2) false false data with
        | error e => rw [h4] at h3; cases h3; cases hok
        | ok plan =>
          rw [h4] at h3
          have : res = .ok () := hok
          subst this
          exact ⟨plan, st', h3, rfl⟩

/-- An integration that only counts time. -/
def exStill : Integrator ℚ (ℚ × List ℚ) where
  time s := s.1
  cvgs s := s.2
  integrate s t := .ok (t, s.2)

/-- The script, told to do the integration only, runs the model, and its results are there. -/
example : ((mkmScript ⟨1 / 4, 1, true, false, [], true⟩ exStill (fun c t => (t, c)) 1 2 (.ok [1 / 2]) (fun _ : List Unit => .error .ValueError)
      none 10 (exRun ([1], [4]) 5 none) ⟨.new, exFresh⟩).map fun r => (r.result, r.warnings, r.state.rep.tofs.isSome)) =
    some (.ok (), [str! "solve_ode"], true) := by decide +kernel

/-- All assumptions of `C104_guess_partial` and `C104_found_partial` for adsorption and desorption with half coverage as
Boltzmann coverages, with the parameters of the script. -/
example : ∃ M : ℕ, ∀ plugins xrc, ∃ fuel r x,
    mkmScript mkmDefaults (exactIntegrator exHalf ([1], [1])) (fun c t => (t, c)) exHalf.net.ads.length 1 (.ok [1 / 2]) (fun _ : List Unit => .error .ValueError)
      none fuel ⟨exHalf, ([1], [1]), fun c => .ok c, .error .IOError,
        mdEnv exHalf ([1], [1]) ([1], [1]) exactSolve euclid 60 (M + 1) (1 / 10 ^ 8) (M + 1) none plugins false, constrainCoverages exHalf, 1, xrc⟩
      ⟨.new, ⟨none, none, false, [], []⟩⟩ = some r ∧ r.state.rep.coverages = some x ∧ NearTo (1 / 1000) x [1 / 2] := by
  have hc := exHalf_conditions (a := 1) (b := 1) (by norm_num) (by norm_num)
  obtain ⟨δ, hδ, M, h⟩ := C104_found_partial exHalf (fun _ => 1) (fun _ => 1) (fun _ => 0) [1] [1] _ _ (exHalf_ok 1 1) hc (by decide) exHalf_simple
    rfl rfl exHalf_self exactSolve exactSolve_right exactSolve_regular _ _ (exactIntegrator_exact exHalf ([1], [1]))
    (exactIntegrator_integrates (exHalf_ok 1 1) hc) 1 (by norm_num) mkmDefaults 1000 (by norm_num [mkmDefaults]) (by norm_num [mkmDefaults]) rfl
    (.ok [1 / 2]) [1 / 2] (.inl rfl) (exHalf_physical (by norm_num) (by norm_num)) [1 / 2] rfl (by simp) [0] exHalf_function (by simp)
    [[-2]] exHalf_jacobian
    (by
      intro d hd hv
      obtain ⟨d, rfl⟩ : ∃ e, d = [e] := List.length_eq_one_iff.mp hd
      simpa [matVec] using hv) (1 / 10 ^ 8) (1 / 1000) (by norm_num) (by norm_num)
  refine ⟨M, fun plugins xrc => ?_⟩
  have hnear : ∀ w, From exHalf ([1], [1]) [1 / 2] w → NearTo δ (exHalf.net.ads.map (w (mkmDefaults : MkmArgs ℝ).odeEnd)) [1 / 2] := by
    rintro w ⟨w1, w2⟩
    have hf := exHalfFlow_from (a := 1) (b := 1) (by norm_num) (1 / 2)
    have := (C93_unique_partial exHalf (fun _ => 1) (fun _ => 1) (fun _ => 0) [1] [1] _ _ (exHalf_ok 1 1) 1 w (exHalfFlow 1 1 (1 / 2)) (w1 1) (hf.1 1)).1
      (map_eq_iff.mp (w2.trans hf.2.symm)) 1 ⟨by norm_num, le_refl _⟩
    rw [show (mkmDefaults : MkmArgs ℝ).odeEnd = 1 from rfl, map_eq_iff.mpr this, exHalf_ads]
    refine ⟨rfl, ?_⟩
    intro i a b ha hb
    cases i with
    | zero =>
      have e1 : exHalfFlow 1 1 (1 / 2) 1 (str! "CO_s") = a := Option.some.inj ha
      have e2 : (1 / 2 : ℝ) = b := Option.some.inj hb
      rw [← e1, ← e2]
      have : exHalfFlow 1 1 (1 / 2) 1 (str! "CO_s") = 1 / 2 := by unfold exHalfFlow; norm_num
      rw [this]; simpa using hδ
    | succ i => cases ha
  obtain ⟨fuel, r, x, -, k1, k2, k3, -⟩ := h hnear (fun _ : List Unit => .error .ValueError) none ⟨exHalf, ([1], [1]), fun c => .ok c, .error .IOError,
        mdEnv exHalf ([1], [1]) ([1], [1]) exactSolve euclid 60 (M + 1) (1 / 10 ^ 8) (M + 1) none plugins false, constrainCoverages exHalf, 1, xrc⟩
      ⟨.new, ⟨none, none, false, [], []⟩⟩ 60 (M + 1) (M + 1) none plugins (by norm_num) (by omega) (by omega) rfl rfl (by norm_num) rfl rfl
  exact ⟨fuel, r, x, k1, k2, k3⟩

end Verif
