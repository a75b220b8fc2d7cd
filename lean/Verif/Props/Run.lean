import Verif.Model.Run
import Verif.Props.SteadyLoop
/-
Results of a whole run (C72).
-/
namespace Verif

section
variable {K : Type} [Field K] [LinearOrder K]

/-- The turnover frequencies `t` and reversibilities `v` are those of coverages `x` with rate constants `k`: net molecules
of each gas and liquid, backward over forward rate of each reaction. -/
structure BelongTo (o : MFOwner K) (k : List K × List K) (x t v : List K) : Prop where
  rates : ∃ rf rr, getRates o k x = .ok (rf, rr) ∧ rf.length = o.rxns.length ∧ rr.length = o.rxns.length ∧ (∀ f ∈ rf, f ≠ 0) ∧
    t = (o.net.gas ++ o.net.liq).map (production o.net (rf.zipWith (· - ·) rr)) ∧
    v = rf.zipWith (fun f r => r / f) rr

omit [LinearOrder K] in
theorem getRates_length {o : MFOwner K} {k : List K × List K} {x : List K} {r : List K × List K} (h : getRates o k x = .ok r) :
    r.1.length = o.rxns.length ∧ r.2.length = o.rxns.length := by
  unfold getRates at h
  obtain ⟨env, -, h⟩ := bind_ok.mp h
  obtain ⟨ts, hts, h⟩ := bind_ok.mp h
  obtain ⟨rfs, hrf, h⟩ := bind_ok.mp h
  obtain ⟨rrs, hrr, h⟩ := bind_ok.mp h
  cases h
  have h1 := (mapM_ok_inv hts).1
  have h2 := (mapM_ok_inv hrf).1
  have h3 := (mapM_ok_inv hrr).1
  exact ⟨by simp_all, by simp_all⟩

theorem reversibilities_inv {rf rr v : List K} (h : Verif.reversibilities rf rr = .ok v) :
    (∀ f ∈ rf, f ≠ 0) ∧ v = rf.zipWith (fun f r => r / f) rr := by
  unfold Verif.reversibilities at h
  by_cases hl : rf.length = rr.length
  swap
  · rw [if_pos hl] at h; cases h
  rw [if_neg (by simpa using hl)] at h
  obtain ⟨h1, h2⟩ := mapM_ok_inv h
  have key : ∀ i (a : i < rf.length) (b : i < rr.length) (c : i < v.length), rf[i] ≠ 0 ∧ v[i] = rr[i] / rf[i] := by
    intro i a b c
    have := h2 i (by simp; omega) c
    simp only [List.getElem_zip] at this
    by_cases h0 : rf[i] = 0
    · rw [if_pos h0] at this; cases this
    · rw [if_neg h0] at this
      exact ⟨h0, (Except.ok.inj this).symm⟩
  have hv : v.length = rf.length := by rw [h1]; simp; omega
  constructor
  · intro f hf
    obtain ⟨i, hi, rfl⟩ := List.mem_iff_getElem.mp hf
    exact (key i hi (by omega) (by omega)).1
  · apply List.ext_getElem
    · simp; omega
    · intro i a b
      simp only [List.getElem_zipWith]
      exact (key i (by omega) (by omega) a).2

/-- The run stopped before it had any coverages: no initial guess could be chosen, or the search raised. -/
def StopsBefore (env : RunEnv K) (plan : Py (Plan K (List K))) (st : RunState K) : Prop :=
  (∃ e, plan = .error e) ∨ ∃ p s e, plan = .ok p ∧ findCoverages env p st.solver = some (s, .raised e)

/-- The run found coverages that were not steady, or could not calculate what belongs to them. -/
def StopsBetween (env : RunEnv K) (plan : Py (Plan K (List K))) (st : RunState K) : Prop :=
  ∃ p s, plan = .ok p ∧ (findCoverages env p st.solver = some (s, .none) ∨
    ∃ x e, findCoverages env p st.solver = some (s, .returned x) ∧ (reportResults env (some x) ⟨st.rep, s⟩).2 = .error e)

/-- All results reported belong to the coverages reported, for the model and rate constants of `env`. -/
def Complete (env : RunEnv K) (r : Reported K) : Prop :=
  ∃ x t v e, r = ⟨some x, some t, some v, some e⟩ ∧ BelongTo env.o env.k x t v

theorem reportResults_ok {env : RunEnv K} (hp : parseNetwork env.o.rxns = .ok env.o.net) {x : List K} {st st' : RunState K}
    (h : reportResults env (some x) st = (st', .ok ())) :
    ∃ t v e, st' = ⟨⟨some x, some t, some v, some e⟩, st.solver⟩ ∧ st.solver.error = some e ∧ BelongTo env.o env.k x t v := by
  unfold reportResults at h
  dsimp only at h
  cases hr : getRates env.o env.k x with
  | error e => rw [hr] at h; cases h
  | ok r =>
    rw [hr] at h
    dsimp only at h
    cases ht : getTof env.o env.k x with
    | error e => rw [ht] at h; cases h
    | ok t =>
      rw [ht] at h
      dsimp only at h
      cases hv : Verif.reversibilities r.1 r.2 with
      | error e => rw [hv] at h; cases h
      | ok v =>
        rw [hv] at h
        dsimp only at h
        cases he : st.solver.error with
        | none => rw [he] at h; cases h
        | some e =>
          rw [he] at h
          cases h
          refine ⟨t, v, e, rfl, rfl, ⟨r.1, r.2, hr, (getRates_length hr).1, (getRates_length hr).2, (reversibilities_inv hv).1, ?_, (reversibilities_inv hv).2⟩⟩
          have hn : getNetRates env.o env.k x = .ok (List.zipWith (· - ·) r.1 r.2) := by
            unfold getNetRates; rw [hr]; rfl
          have := (C69_turnover env.o env.k x _ hp hn (by simp [getRates_length hr])).1
          rw [ht] at this
          exact Except.ok.inj this

omit [Field K] [LinearOrder K] in
theorem runXrc_rep {env : RunEnv K} {xrc : Option (Option Str)} {st st' : RunState K} {res : Py Unit} (h : runXrc env xrc st = some (st', res)) :
    st'.rep = st.rep := by
  unfold runXrc at h
  cases xrc with
  | none => cases h; rfl
  | some p =>
    cases p with
    | none => cases h; rfl
    | some p =>
      dsimp only at h
      cases hx : env.xrc p st.solver with
      | none => rw [hx] at h; cases h
      | some r => rw [hx] at h; cases h; rfl

/-- **C72** However a run ends: if it stops before it has coverages, nothing reported changes; otherwise, unless it stops
between the results, everything reported belongs to its own coverages and energies, whatever earlier runs left behind and
even if the degrees of rate control fail. A run that ends without error is of the second kind. -/
theorem C72_run (env : RunEnv K) (hp : parseNetwork env.o.rxns = .ok env.o.net) (plan : Py (Plan K (List K))) (xrc : Option (Option Str))
    (st st' : RunState K) (res : Py Unit) (h : runModel env plan xrc st = some (st', res)) :
    (StopsBefore env plan st → st'.rep = st.rep) ∧
    (¬ StopsBefore env plan st → ¬ StopsBetween env plan st → Complete env st'.rep) ∧
    (res = .ok () → ¬ StopsBefore env plan st ∧ ¬ StopsBetween env plan st ∧ Complete env st'.rep) := by
  unfold runModel at h
  cases plan with
  | error e =>
    cases h
    have : StopsBefore env (Except.error e) st := .inl ⟨e, rfl⟩
    exact ⟨fun _ => rfl, fun h => absurd this h, fun h => (nomatch h)⟩
  | ok p =>
    dsimp only at h
    cases hf : findCoverages env p st.solver with
    | none => rw [hf] at h; cases h
    | some r =>
      obtain ⟨s, out⟩ := r
      rw [hf] at h
      cases out with
      | hangs => cases h
      | raised e =>
        cases h
        have : StopsBefore env (Except.ok p) st := .inr ⟨p, s, e, rfl, hf⟩
        exact ⟨fun _ => rfl, fun h => absurd this h, fun h => (nomatch h)⟩
      | none =>
        cases h
        have hb : StopsBetween env (Except.ok p) st := ⟨p, s, rfl, .inl hf⟩
        refine ⟨?_, fun _ h => absurd hb h, fun h => (nomatch h)⟩
        rintro (⟨e, h⟩ | ⟨p', s', e, h, h'⟩)
        · cases h
        · cases h; rw [hf] at h'; cases h'
      | returned x =>
        dsimp only at h
        have hnb : ¬ StopsBefore env (Except.ok p) st := by
          rintro (⟨e, h⟩ | ⟨p', s', e, h, h'⟩)
          · cases h
          · cases h; rw [hf] at h'; cases h'
        cases hr : reportResults env (some x) { st with solver := s } with
        | mk st1 res1 =>
          rw [hr] at h
          cases res1 with
          | error e =>
            cases h
            have hb : StopsBetween env (Except.ok p) st := ⟨p, s, rfl, .inr ⟨x, e, hf, by rw [show (⟨st.rep, s⟩ : RunState K) = { st with solver := s } from rfl, hr]⟩⟩
            exact ⟨fun h => absurd h hnb, fun _ h => absurd hb h, fun h => (nomatch h)⟩
          | ok u =>
            dsimp only at h
            have hc : Complete env st'.rep := by
              rw [runXrc_rep h]
              obtain ⟨t, v, e, rfl, -, hb⟩ := reportResults_ok hp hr
              exact ⟨x, t, v, e, rfl, hb⟩
            refine ⟨fun h => absurd h hnb, fun _ _ => hc, fun _ => ⟨hnb, ?_, hc⟩⟩
            rintro ⟨p', s', h1, h2 | ⟨x', e, h2, h3⟩⟩
            · cases h1; rw [hf] at h2; cases h2
            · cases h1; rw [hf] at h2; cases h2
              rw [show (⟨st.rep, s⟩ : RunState K) = { st with solver := s } from rfl, hr] at h3; cases h3

/-- No run of the history stops between its results. -/
def NoneBetween : RunState K → List (RunEnv K × Py (Plan K (List K)) × Option (Option Str)) → Prop
  | _, [] => True
  | st, r :: rest => ¬ StopsBetween r.1 r.2.1 st ∧ ∀ st' res, runModel r.1 r.2.1 r.2.2 st = some (st', res) → NoneBetween st' rest

/-- **C72** (partial) After any number of runs, each with its own settings, what a model reports is either nothing or belongs
together and to a single run, provided no run stopped between its results. Without this the results of two runs are mixed
(`C72_mixed_refuted`). -/
theorem C72_history_partial (runs : List (RunEnv K × Py (Plan K (List K)) × Option (Option Str))) (hp : ∀ r ∈ runs, parseNetwork r.1.o.rxns = .ok r.1.o.net)
    (s : SolveState K) (st' : RunState K) (hn : NoneBetween ⟨.new, s⟩ runs) (h : runAll ⟨.new, s⟩ runs = some st') :
    st'.rep = .new ∨ ∃ r ∈ runs, Complete r.1 st'.rep := by
  have key : ∀ (runs : List (RunEnv K × Py (Plan K (List K)) × Option (Option Str))) (P : Reported K → Prop) (st : RunState K), P st.rep →
      (∀ r ∈ runs, parseNetwork r.1.o.rxns = .ok r.1.o.net) → (∀ r ∈ runs, ∀ rep, Complete r.1 rep → P rep) → NoneBetween st runs →
      runAll st runs = some st' → P st'.rep := by
    intro runs P
    induction runs with
    | nil => intro st h0 _ _ _ h; cases h; exact h0
    | cons r rest ih =>
      intro st h0 hp hP hn h
      unfold runAll at h
      cases hr : runModel r.1 r.2.1 r.2.2 st with
      | none => rw [hr] at h; cases h
      | some q =>
        obtain ⟨st1, res⟩ := q
        rw [hr] at h
        dsimp only at h
        refine ih st1 ?_ (fun r hr => hp r (by simp [hr])) (fun r hr => hP r (by simp [hr])) (hn.2 st1 res hr) h
        obtain ⟨h1, h2, -⟩ := C72_run r.1 (hp r (by simp)) r.2.1 r.2.2 st st1 res hr
        by_cases hb : StopsBefore r.1 r.2.1 st
        · rw [h1 hb]; exact h0
        · exact hP r (by simp) _ (h2 hb hn.1)
  exact key runs (fun rep => rep = .new ∨ ∃ r ∈ runs, Complete r.1 rep) _ (.inl rfl) hp (fun r hr rep hc => .inr ⟨r, hr, hc⟩) hn h

theorem getSteady_error {env : SolveEnv K} {constrain : List K → Py (List K)} {n : Nat} {c0 : Option (List K)} {st st' : SolveState K} {x : List K}
    (h : getSteady env constrain n c0 st = some (st', .returned x)) : ∃ e, st'.error = some e := by
  have key : ∀ n outer c0 st, outerLoop env n outer c0 st = some (st', .returned x) → ∃ e, st'.error = some e := by
    intro n
    induction n with
    | zero => intro _ _ _ h; cases h
    | succ n ih =>
      intro outer c0 st h
      rw [outerLoop_succ] at h
      cases hb : (outerBody env outer c0 st).2 with
      | leave =>
        rw [hb] at h
        dsimp only at h
        have hf := Option.some.inj h
        unfold finish at hf
        by_cases hc : (finalizeAll env outer (outerBody env outer c0 st)).converged = true
        · rw [if_pos hc] at hf
          cases h1 : (finalizeAll env outer (outerBody env outer c0 st)).coverages <;>
          cases h2 : (finalizeAll env outer (outerBody env outer c0 st)).error <;> rw [h1, h2] at hf <;> cases hf
          exact ⟨_, rfl⟩
        · rw [if_neg hc] at hf; cases hf
      | again o c => rw [hb] at h; exact ih o c _ h
      | raised e => rw [hb] at h; cases h
      | hangs => rw [hb] at h; cases h
  rcases getSteady_start env h with ⟨e, h', -⟩ | ⟨c, c', -, -, h'⟩
  · cases h'
  · exact key _ _ _ _ h'

/-- The run does not ask for the low-precision solution. -/
def Precise : Py (Plan K (List K)) → Prop
  | .ok (.fsolve _) => False
  | _ => True

/-- **C72** The coverages reported by a run that ends without error, and was not asked for the low-precision solution, are
steady to within the tolerance with the energies given, and the error reported is that of the solver. -/
theorem C72_steady (env : RunEnv K) (hp : parseNetwork env.o.rxns = .ok env.o.net) (hres : env.search.resid = getResidual env.o env.k)
    (plan : Py (Plan K (List K))) (hprec : Precise plan) (st st' : RunState K) (h : runModel env plan none st = some (st', .ok ())) :
    ∃ x r e, st'.rep.coverages = some x ∧ getResidual env.o env.k x = .ok r ∧ r ≤ env.search.tol ∧
      st'.solver.coverages = some x ∧ st'.solver.error = some e ∧ st'.rep.error = some e := by
  unfold runModel at h
  cases plan with
  | error e => cases h
  | ok p =>
    dsimp only at h
    have hs : ∀ s x, findCoverages env p st.solver = some (s, .returned x) →
        (∃ r, getResidual env.o env.k x = .ok r ∧ r ≤ env.search.tol) ∧ s.coverages = some x := by
      intro s x hf
      have hg : ∃ c0, getSteady env.search env.constrain env.rounds c0 st.solver = some (s, .returned x) := by
        cases p with
        | fsolve _ => exact hprec.elim
        | coarseFirst a =>
          unfold findCoverages at hf
          dsimp only at hf
          cases hc : (startCoverages env a >>= coarseCoverages env) with
          | error e => rw [hc] at hf; cases hf
          | ok c => rw [hc] at hf; exact ⟨_, hf⟩
        | direct a =>
          unfold findCoverages at hf
          dsimp only at hf
          cases hc : startCoverages env a with
          | error e => rw [hc] at hf; cases hf
          | ok c => rw [hc] at hf; exact ⟨_, hf⟩
      obtain ⟨c0, hg⟩ := hg
      obtain ⟨⟨r, h1, h2⟩, h3, -⟩ := C31_residual env.search env.constrain env.rounds c0 st.solver s x hg
      exact ⟨⟨r, by rw [← hres]; exact h1, h2⟩, h3⟩
    cases hf : findCoverages env p st.solver with
    | none => rw [hf] at h; cases h
    | some q =>
      obtain ⟨s, out⟩ := q
      rw [hf] at h
      cases out with
      | hangs => cases h
      | raised e => cases h
      | none => cases h
      | returned x =>
        dsimp only at h
        cases hr : reportResults env (some x) { st with solver := s } with
        | mk st1 res1 =>
          rw [hr] at h
          cases res1 with
          | error e => cases h
          | ok u =>
            cases h
            obtain ⟨t, v, e, rfl, he, -⟩ := reportResults_ok hp hr
            obtain ⟨⟨r, h1, h2⟩, h3⟩ := hs s x hf
            exact ⟨x, r, e, rfl, h1, h2, h3, he, rfl⟩

/-- **C72** (refuted) A run asked for the low-precision solution always raises on a solver that has not searched yet, though
coverages, turnover frequencies and reversibilities are stored before; no error is reported. After an earlier search it
reports the error of that search. -/
theorem C72_fsolve_refuted (env : RunEnv K) (a : Start K (List K)) (xrc : Option (Option Str)) (st st' : RunState K) (res : Py Unit)
    (h : runModel env (.ok (.fsolve a)) xrc st = some (st', res)) :
    (st.solver.error = none → ∃ e, res = .error e) ∧ (res = .ok () → st'.rep.error = st.solver.error) := by
  unfold runModel findCoverages at h
  dsimp only at h
  cases hc : (startCoverages env a >>= coarseCoverages env) with
  | error e =>
    rw [hc] at h
    cases h
    exact ⟨fun _ => ⟨e, rfl⟩, fun h => (nomatch h)⟩
  | ok x =>
    rw [hc] at h
    dsimp only at h
    have hkey : ∀ st1, reportResults env (some x) st = (st1, .ok ()) → st.solver.error ≠ none ∧ st1.rep.error = st.solver.error := by
      intro st1 h
      unfold reportResults at h
      dsimp only at h
      cases hr : getRates env.o env.k x with
      | error e => rw [hr] at h; cases h
      | ok r =>
        rw [hr] at h
        dsimp only at h
        cases ht : getTof env.o env.k x with
        | error e => rw [ht] at h; cases h
        | ok t =>
          rw [ht] at h
          dsimp only at h
          cases hv : Verif.reversibilities r.1 r.2 with
          | error e => rw [hv] at h; cases h
          | ok v =>
            rw [hv] at h
            dsimp only at h
            cases he : st.solver.error with
            | none => rw [he] at h; cases h
            | some e => rw [he] at h; cases h; exact ⟨by simp, rfl⟩
    cases hr : reportResults env (some x) st with
    | mk st1 res1 =>
      have hr' : reportResults env (some x) { st with solver := st.solver } = (st1, res1) := hr
      rw [hr'] at h
      cases res1 with
      | error e => cases h; exact ⟨fun _ => ⟨e, rfl⟩, fun h => (nomatch h)⟩
      | ok u =>
        dsimp only at h
        obtain ⟨h1, h2⟩ := hkey st1 hr
        exact ⟨fun h0 => absurd h0 h1, fun _ => by rw [runXrc_rep h, h2]⟩

/-- The run does not start from the ODE integration. -/
def NoIntegration : Py (Plan K (List K)) → Prop
  | .ok (.fsolve .ode) => False
  | .ok (.coarseFirst .ode) => False
  | .ok (.direct .ode) => False
  | _ => True

/-- **C72** Unless a run was asked to start from the ODE integration, nothing of it depends on the integration. -/
theorem C72_integration (env : RunEnv K) (r : Py (List K)) (plan : Py (Plan K (List K))) (h : NoIntegration plan) (xrc : Option (Option Str))
    (st : RunState K) : runModel { env with ode := r } plan xrc st = runModel env plan xrc st := by
  have hs : ∀ a : Start K (List K), a ≠ .ode → startCoverages { env with ode := r } a = startCoverages env a := by
    intro a ha
    cases a with
    | ode => exact absurd rfl ha
    | _ => rfl
  have hc : coarseCoverages { env with ode := r } = coarseCoverages env := by
    funext c; cases c <;> rfl
  have hf : ∀ p, plan = .ok p → ∀ s, findCoverages { env with ode := r } p s = findCoverages env p s := by
    rintro p rfl s
    unfold findCoverages
    cases p with
    | fsolve a => dsimp only; rw [hs a (by rintro rfl; exact h), hc]
    | coarseFirst a => dsimp only; rw [hs a (by rintro rfl; exact h), hc]
    | direct a => dsimp only; rw [hs a (by rintro rfl; exact h)]
  unfold runModel
  cases plan with
  | error e => rfl
  | ok p => dsimp only; rw [hf p rfl]; rfl

/-- **C72** A run that starts from the integration fails as the integration does, before anything is reported. -/
theorem C72_integration_fails (env : RunEnv K) (e : PyErr) (h : env.ode = .error e) (p : Plan K (List K)) (hp : ¬ NoIntegration (.ok p))
    (xrc : Option (Option Str)) (st : RunState K) : runModel env (.ok p) xrc st = some (st, .error e) := by
  unfold runModel findCoverages
  cases p with
  | fsolve a => cases a <;> simp_all [NoIntegration, startCoverages, bind, Except.bind, Except.map]
  | coarseFirst a => cases a <;> simp_all [NoIntegration, startCoverages, bind, Except.bind, Except.map]
  | direct a => cases a <;> simp_all [NoIntegration, startCoverages, Except.map]

/-- **C72** With rate control, a run first does what it does without it. If that ends without error, the calculation of rate
control starts from the solver that found the coverages; what it leaves in the solver stays there, and its error ends the
run. Without a product to look at the run raises after the results are stored. -/
theorem C72_rate_control (env : RunEnv K) (plan : Py (Plan K (List K))) (x : Option Str) (st : RunState K) :
    runModel env plan (some x) st =
      match runModel env plan none st with
      | some (st1, .ok ()) => match x with
        | none => some (st1, .error .ParameterError)
        | some p => (env.xrc p st1.solver).map fun r => (⟨st1.rep, r.1⟩, r.2)
      | other => other := by
  unfold runModel
  cases plan with
  | error e => rfl
  | ok p =>
    dsimp only
    cases findCoverages env p st.solver with
    | none => rfl
    | some q =>
      obtain ⟨s, out⟩ := q
      cases out with
      | hangs => rfl
      | raised e => rfl
      | none => dsimp only; unfold reportResults; rfl
      | returned c =>
        dsimp only
        cases reportResults env (some c) { st with solver := s } with
        | mk st1 res => cases res <;> cases x <;> rfl

end

/-- **C72** After a run that ends without error the report of the model gives its coverages and turnover frequencies, and
the reported error can be read. -/
theorem C72_info {K : Type} [Field K] [LinearOrder K] (env : RunEnv K) (hp : parseNetwork env.o.rxns = .ok env.o.net)
    (plan : Py (Plan K (List K))) (xrc : Option (Option Str)) (st st' : RunState K) (h : runModel env plan xrc st = some (st', .ok ())) :
    ∃ x t v e, modelInfo st'.rep = .ok (x, t, some v) ∧ reportedError st'.rep = .ok e ∧ BelongTo env.o env.k x t v := by
  obtain ⟨-, -, x, t, v, e, hr, hb⟩ := (C72_run env hp plan xrc st st' _ h).2.2 rfl
  exact ⟨x, t, v, e, by rw [hr]; rfl, by rw [hr]; rfl, hb⟩

/-- **C72** (refuted) A model that has not been solved does not say so: its coverages, turnover frequencies and
reversibilities are `None`, and the report raises `TypeError`; only the error raises `AttributeError`. -/
theorem C72_unsolved_refuted {K : Type} [Field K] [LinearOrder K] (runs : List (RunEnv K × Py (Plan K (List K)) × Option (Option Str))) (s : SolveState K)
    (st' : RunState K) (hb : ∀ r ∈ runs, ∃ e, r.2.1 = .error e) (h : runAll ⟨.new, s⟩ runs = some st') :
    st'.rep.coverages = none ∧ st'.rep.tofs = none ∧ st'.rep.reversibilities = none ∧ modelInfo st'.rep = .error .TypeError ∧
      reportedError st'.rep = .error .AttributeError := by
  have : st' = ⟨.new, s⟩ := by
    induction runs with
    | nil => cases h; rfl
    | cons r rest ih =>
      obtain ⟨e, he⟩ := hb r (by simp)
      unfold runAll runModel at h
      rw [he] at h
      exact ih (fun r hr => hb r (by simp [hr])) h
  subst this
  exact ⟨rfl, rfl, rfl, rfl, rfl⟩

/-! ## Concrete cases -/

/-- Runs of dissociative adsorption, with the iteration limit and the hybrid method as parameters. -/
def exRun (k : List ℚ × List ℚ) (maxIter : Int) (hybrid : Option (Option (List ℚ) → Nat → Py (List ℚ))) : RunEnv ℚ where
  o := exDissMF
  k := k
  root c := .ok c
  ode := .error .IOError
  search := mdEnv exDissMF k k exSolve exAbs 4 4 (1 / 1000) maxIter hybrid [] false
  constrain := constrainCoverages exDissMF
  rounds := 3
  xrc _ s := some (s, .ok ())

/-- `C72_integration` and `C72_integration_fails`: a run from given coverages, and one from the integration, which fails here. -/
example : NoIntegration (K := ℚ) (.ok (.coarseFirst (.given [1 / 2]))) ∧ ¬ NoIntegration (K := ℚ) (.ok (.direct .ode)) ∧
    (exRun ([1], [4]) 5 none).ode = .error .IOError := ⟨trivial, id, rfl⟩

/-- A first run that ends well. -/
def exRun1 : RunEnv ℚ × Py (Plan ℚ (List ℚ)) × Option (Option Str) := (exRun ([1], [4]) 5 none, .ok (.coarseFirst (.given [1 / 2])), none)

/-- A second run, with other energies, that is given up. -/
def exRun2 : RunEnv ℚ × Py (Plan ℚ (List ℚ)) × Option (Option Str) := (exRun ([1], [9]) 1 none, .ok (.coarseFirst (.given [1 / 3])), none)

example : parseNetwork exDissMF.rxns = .ok exDissMF.net ∧ Precise exRun1.2.1 ∧ (exRun ([1], [4]) 5 none).search.resid = getResidual exDissMF ([1], [4]) ∧
    ((runModel exRun1.1 exRun1.2.1 exRun1.2.2 ⟨.new, exFresh⟩).map fun r => (r.1.rep.coverages, r.2)) = some (some [3587227 / 10761680], .ok ()) :=
  ⟨by decide +kernel, trivial, rfl, by decide +kernel⟩

-- the results of the first run, all of them
example : ((runAll ⟨.new, exFresh⟩ [exRun1]).map fun s => (s.rep.tofs.isSome, s.rep.reversibilities.isSome, s.rep.error)) =
    some (true, true, some (14348907 / 57906878211200)) := by decide +kernel

/-- **C72** (refuted) Results of two runs are mixed: after a run that ended well, a second run with other energies whose
search is given up raises, and leaves no coverages next to the turnover frequencies, reversibilities and error of the
first run. -/
theorem C72_mixed_refuted : ∃ st1 st2 e, runModel exRun1.1 exRun1.2.1 exRun1.2.2 ⟨.new, exFresh⟩ = some (st1, .ok ()) ∧
    runModel exRun2.1 exRun2.2.1 exRun2.2.2 st1 = some (st2, .error .TypeError) ∧
    st2.rep.coverages = none ∧ st2.rep.tofs = st1.rep.tofs ∧ st2.rep.tofs ≠ none ∧ st2.rep.reversibilities = st1.rep.reversibilities ∧
    st2.rep.error = some e ∧ st1.rep.error = some e := by
  have h : ((runModel exRun1.1 exRun1.2.1 exRun1.2.2 ⟨.new, exFresh⟩).bind fun r1 =>
      (runModel exRun2.1 exRun2.2.1 exRun2.2.2 r1.1).map fun r2 => ((r1.2, r2.2), r1.1.rep, r2.1.rep)) =
    some ((.ok (), .error .TypeError),
      ⟨some [3587227 / 10761680], some [14348907 / 115813756422400], some [51472790198116 / 51472775849209], some (14348907 / 57906878211200)⟩,
      ⟨none, some [14348907 / 115813756422400], some [51472790198116 / 51472775849209], some (14348907 / 57906878211200)⟩) := by decide +kernel
  obtain ⟨⟨st1, res1⟩, h1, h⟩ := Option.bind_eq_some_iff.mp h
  obtain ⟨⟨st2, res2⟩, h2, h⟩ := Option.map_eq_some_iff.mp h
  dsimp only at h h2
  obtain ⟨⟨rfl, rfl⟩, hr1, hr2⟩ : (res1 = _ ∧ res2 = _) ∧ st1.rep = _ ∧ st2.rep = _ := by simpa [Prod.mk.injEq] using h
  exact ⟨st1, st2, 14348907 / 57906878211200, h1, h2, by rw [hr2], by rw [hr1, hr2], by rw [hr2]; simp, by rw [hr1, hr2], by rw [hr2], by rw [hr1]⟩

/-- The history of one good run meets the condition of `C72_history_partial`. -/
example : NoneBetween ⟨.new, exFresh⟩ [exRun1] := by
  refine ⟨?_, fun _ _ _ => trivial⟩
  rintro ⟨p, s, hp, h | ⟨x, e, h, h'⟩⟩
  · cases hp
    have : (findCoverages exRun1.1 (.coarseFirst (.given [1 / 2])) exFresh).map (·.2) ≠ some .none := by decide +kernel
    exact this (by rw [h]; rfl)
  · cases hp
    have h1 : (match findCoverages exRun1.1 (.coarseFirst (.given [1 / 2])) exFresh with
      | some (s, .returned x) => (reportResults exRun1.1 (some x) ⟨.new, s⟩).2.toOption
      | _ => none) = some () := by decide +kernel
    rw [h] at h1
    simp only [h'] at h1
    cases h1

section
variable {K : Type} [Field K] [LinearOrder K]

/-- **C72** A coarse search first is the same as a run from the coverages it finds, and a run with `fsolve` reports
exactly what `fsolve` returns, whatever the start. An error of `fsolve` ends the run. -/
theorem C72_coarse (env : RunEnv K) (l : List K) (xrc : Option (Option Str)) (st : RunState K) :
    (∀ x, env.root l = .ok x →
      runModel env (.ok (.coarseFirst (.given l))) xrc st = runModel env (.ok (.direct (.given x))) xrc st ∧
      (∀ st' res, runModel env (.ok (.fsolve (.given l))) xrc st = some (st', res) → st'.rep.coverages = some x)) ∧
    (∀ e, env.root l = .error e →
      runModel env (.ok (.coarseFirst (.given l))) xrc st = some (st, .error e) ∧
      runModel env (.ok (.fsolve (.given l))) xrc st = some (st, .error e)) := by
  refine ⟨fun x hx => ⟨?_, ?_⟩, fun e he => ⟨?_, ?_⟩⟩
  · unfold runModel findCoverages startCoverages coarseCoverages
    simp only [bind, Except.bind, hx]
  · intro st' res h
    unfold runModel findCoverages startCoverages coarseCoverages at h
    simp only [bind, Except.bind, hx] at h
    have hc : ∀ st2 : RunState K, (reportResults env (some x) st2).1.rep.coverages = some x := by
      intro st2
      unfold reportResults
      dsimp only
      cases getRates env.o env.k x with
      | error e => rfl
      | ok r =>
        dsimp only
        cases getTof env.o env.k x with
        | error e => rfl
        | ok t =>
          dsimp only
          cases Verif.reversibilities r.1 r.2 with
          | error e => rfl
          | ok v =>
            dsimp only
            cases st2.solver.error <;> rfl
    cases hr : reportResults env (some x) { st with solver := st.solver } with
    | mk s1 r1 =>
      have h1 := hc { st with solver := st.solver }
      rw [hr] at h h1
      cases r1 with
      | error e => cases h; exact h1
      | ok u =>
        dsimp only at h
        rw [runXrc_rep h]
        exact h1
  · unfold runModel findCoverages startCoverages coarseCoverages
    simp only [bind, Except.bind, he]
  · unfold runModel findCoverages startCoverages coarseCoverages
    simp only [bind, Except.bind, he]
end

example : exRun1.1.root [1 / 2] = .ok [1 / 2] ∧ ({ exRun1.1 with root := fun _ => .error .ValueError } : RunEnv ℚ).root [1 / 2] = .error .ValueError :=
  ⟨rfl, rfl⟩

end Verif
