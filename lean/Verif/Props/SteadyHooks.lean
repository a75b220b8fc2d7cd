import Verif.Model.SteadyHooks
import Verif.Props.SteadyLoop
/- C112: the search for steady states with plugins that have a state and may raise. -/
namespace Verif

section
variable {K σ : Type} [Field K] [LinearOrder K] (env : SolveEnv K) (hooks : List (Hook K σ))

/-! ## What is returned, whatever the plugins do -/

/-- The coverages kept have a small residual and are a guess given or not negative. -/
def GoodKept (c0 : List K) (st : SolveState K) : Prop :=
  ∃ x r, st.coverages = some x ∧ env.resid x = .ok r ∧ r ≤ env.tol ∧ (x = c0 ∨ ∀ c ∈ x, 0 ≤ c)

theorem hookInner_cons (outer : Nat) (fin : IterEnd) (nt : Nat) (st : SolveState K) (s : σ) (x : List K) (err : K) (rest : List (List K × K)) :
    hookInner env hooks outer fin nt st s ((x, err) :: rest) = (match env.resid x with
    | .error e => (st, s, .raised e)
    | .ok r =>
      if ¬ env.maxIter < ((nt + 1 : Nat) : Int) ∧ err < env.tol then
        if r < env.tol then
          if x = [] then (st, s, .raised .UnboundLocalError)
          else if x.any (fun c => decide (c < 0)) then (st, s, .failed)
          else ({ st with coverages := some x, error := some err, converged := true }, s, .success)
        else
          match hookSteps hooks ⟨some x, some r⟩ (nt + 1) outer s with
          | (s', none) => hookInner env hooks outer fin (nt + 1) { st with coverages := some x, error := some r } s' rest
          | (s', some e) => ({ st with coverages := some x, error := some r }, s', .raised e)
      else if env.maxIter < ((nt + 1 : Nat) : Int) then (st, s, .failed)
      else
        match hookSteps hooks ⟨some x, some err⟩ (nt + 1) outer s with
        | (s', none) => hookInner env hooks outer fin (nt + 1) { st with coverages := some x, error := some err } s' rest
        | (s', some e) => ({ st with coverages := some x, error := some err }, s', .raised e)) := rfl

theorem hookInner_spec (outer : Nat) (fin : IterEnd) (c0 : List K) : ∀ (items : List (List K × K)) (nt : Nat) (st : SolveState K) (s : σ),
    (hookInner env hooks outer fin nt st s items).1.archived = st.archived ∧
    ((hookInner env hooks outer fin nt st s items).2.2 = .success → (hookInner env hooks outer fin nt st s items).1.converged = true ∧
      GoodKept env c0 (hookInner env hooks outer fin nt st s items).1) ∧
    ((hookInner env hooks outer fin nt st s items).2.2 ≠ .success →
      (hookInner env hooks outer fin nt st s items).1.converged = st.converged)
  | [], nt, st, s => by
    refine ⟨rfl, fun h => ?_, fun _ => rfl⟩
    have h' : (match fin with | .stopped => InnerEnd.failed | .raised e => .raised e | .running => .hangs) = .success := h
    cases fin <;> cases h'
  | (x, err) :: rest, nt, st, s => by
    rw [hookInner_cons]
    cases hr : env.resid x with
    | error e => exact ⟨rfl, (fun h => nomatch h), fun _ => rfl⟩
    | ok r =>
      dsimp only
      have step : ∀ y : K, ∀ R, (match hookSteps hooks ⟨some x, some y⟩ (nt + 1) outer s with
          | (s', none) => hookInner env hooks outer fin (nt + 1) { st with coverages := some x, error := some y } s' rest
          | (s', some e) => ({ st with coverages := some x, error := some y }, s', .raised e)) = R →
          R.1.archived = st.archived ∧ (R.2.2 = .success → R.1.converged = true ∧ GoodKept env c0 R.1) ∧
          (R.2.2 ≠ .success → R.1.converged = st.converged) := by
        intro y R hR
        obtain ⟨q, hq⟩ : ∃ q, hookSteps hooks ⟨some x, some y⟩ (nt + 1) outer s = q := ⟨_, rfl⟩
        rw [hq] at hR
        obtain ⟨s', o⟩ := q
        cases o with
        | none =>
          dsimp only at hR
          subst hR
          exact hookInner_spec outer fin c0 rest (nt + 1) _ s'
        | some e =>
          dsimp only at hR
          subst hR
          exact ⟨rfl, (fun h => nomatch h), fun _ => rfl⟩
      by_cases hc : ¬ env.maxIter < ((nt + 1 : Nat) : Int) ∧ err < env.tol
      · rw [if_pos hc]
        by_cases hrt : r < env.tol
        · rw [if_pos hrt]
          by_cases hx : x = []
          · rw [if_pos hx]
            exact ⟨rfl, (fun h => nomatch h), fun _ => rfl⟩
          · rw [if_neg hx]
            by_cases hn : x.any (fun c => decide (c < 0)) = true
            · rw [if_pos hn]
              exact ⟨rfl, (fun h => nomatch h), fun _ => rfl⟩
            · rw [if_neg hn]
              refine ⟨rfl, fun _ => ⟨rfl, x, r, rfl, hr, hrt.le, .inr ?_⟩, fun h => absurd rfl h⟩
              by_contra h
              exact hn (any_neg.mpr h)
        · rw [if_neg hrt]
          exact step r _ rfl
      · rw [if_neg hc]
        by_cases hm : env.maxIter < ((nt + 1 : Nat) : Int)
        · rw [if_pos hm]
          exact ⟨rfl, (fun h => nomatch h), fun _ => rfl⟩
        · rw [if_neg hm]
          exact step err _ rfl

/-- What a body leaves behind. -/
structure HookSpec (outer : Nat) (c0 : List K) (st : SolveState K) (R : SolveState K × σ × BodyEnd K) : Prop where
  conv : R.1.converged = true → st.converged = false → GoodKept env c0 R.1
  leave : R.2.2 = .leave → env.hybrid = none ∨ (R.1.converged = true ∧ GoodKept env c0 R.1)
  next : ∀ o c, R.2.2 = .again o c → o = outer + 1 ∧ ∃ h, env.hybrid = some h ∧ h R.1.coverages outer = .ok c
  arch : R.1.archived = st.archived

theorem hookBody_iter {outer : Nat} {c0 : List K} {st : SolveState K} {s : σ} {r : K} (hr : env.resid c0 = .ok r)
    (hg : ¬ (r ≤ env.tol ∧ env.singlePt = false)) :
    hookBody env hooks outer c0 st s = (match callEach (hooks.map fun h => h.setup st.view outer) s with
      | (s, some e) => (st, s, catchZero env st.coverages outer e)
      | (s, none) =>
        match hookInner env hooks outer (env.newton c0).2 0 st s (env.newton c0).1 with
        | (st, s, .success) => (st, s, .leave)
        | (st, s, .failed) => (st, s, askHybrid env st.coverages outer)
        | (st, s, .raised e) => (st, s, catchZero env st.coverages outer e)
        | (st, s, .hangs) => (st, s, .hangs)) := by
  unfold hookBody
  rw [hr]
  dsimp only
  rw [if_neg hg]
  rfl

theorem hookBody_spec (outer : Nat) (c0 : List K) (st : SolveState K) (s : σ) : HookSpec env outer c0 st (hookBody env hooks outer c0 st s) := by
  have same : ∀ (st1 : SolveState K) (s1 : σ) (e : PyErr), st1.converged = st.converged → st1.archived = st.archived →
      HookSpec env outer c0 st (st1, s1, catchZero env st1.coverages outer e) := fun st1 s1 e h1 h2 =>
    ⟨fun h h' => (by rw [show st1.converged = true from h, h'] at h1; cases h1), fun h => .inl (catchZero_leave env h), fun o c h => catchZero_again env h, h2⟩
  cases hr : env.resid c0 with
  | error e =>
    have eq : hookBody env hooks outer c0 st s = (st, s, catchZero env st.coverages outer e) := by unfold hookBody; rw [hr]
    rw [eq]
    exact same st s e rfl rfl
  | ok r =>
    by_cases hg : r ≤ env.tol ∧ env.singlePt = false
    · cases he : env.goodError c0 with
      | error e =>
        have eq : hookBody env hooks outer c0 st s = ({ st with converged := true, coverages := some c0 }, s, catchZero env (some c0) outer e) := by
          unfold hookBody; rw [hr]; dsimp only; rw [if_pos hg, he]
        rw [eq]
        exact ⟨fun _ _ => ⟨c0, r, rfl, hr, hg.1, .inl rfl⟩, fun h => .inl (catchZero_leave env h), fun o c h => catchZero_again env h, rfl⟩
      | ok err =>
        have eq : hookBody env hooks outer c0 st s = ({ st with converged := true, coverages := some c0, error := some err }, s, .leave) := by
          unfold hookBody; rw [hr]; dsimp only; rw [if_pos hg, he]
        rw [eq]
        exact ⟨fun _ _ => ⟨c0, r, rfl, hr, hg.1, .inl rfl⟩, fun _ => .inr ⟨rfl, c0, r, rfl, hr, hg.1, .inl rfl⟩, (fun o c h => nomatch h), rfl⟩
    · rw [hookBody_iter env hooks hr hg]
      obtain ⟨q, hq⟩ : ∃ q, callEach (hooks.map fun h => h.setup st.view outer) s = q := ⟨_, rfl⟩
      rw [hq]
      obtain ⟨s1, o⟩ := q
      cases o with
      | some e => exact same st s1 e rfl rfl
      | none =>
        dsimp only
        obtain ⟨h1, h2, h3⟩ := hookInner_spec env hooks outer (env.newton c0).2 c0 (env.newton c0).1 0 st s1
        generalize hookInner env hooks outer (env.newton c0).2 0 st s1 (env.newton c0).1 = R at *
        obtain ⟨st2, s2, b⟩ := R
        cases b with
        | success => exact ⟨fun _ _ => (h2 rfl).2, fun _ => .inr (h2 rfl), (fun o c h => nomatch h), h1⟩
        | failed =>
          have h3' : st2.converged = st.converged := h3 (fun h => nomatch h)
          exact ⟨fun h h' => (by rw [show st2.converged = true from h, h'] at h3'; cases h3'), fun h => .inl (askHybrid_leave env h),
            fun o c h => askHybrid_again env h, h1⟩
        | raised e => exact same st2 s2 e (h3 (fun h => nomatch h)) h1
        | hangs =>
          have h3' : st2.converged = st.converged := h3 (fun h => nomatch h)
          exact ⟨fun h h' => (by rw [show st2.converged = true from h, h'] at h3'; cases h3'), (fun h => nomatch h), (fun o c h => nomatch h), h1⟩

omit [Field K] [LinearOrder K] in
theorem closeRound_spec (o : Nat) (st : SolveState K) (s : σ) (b : BodyEnd K) : (closeRound hooks o st s b).1 = st ∧
    ((closeRound hooks o st s b).2.2 = b ∨ ∃ e, (closeRound hooks o st s b).2.2 = .raised e) := by
  unfold closeRound
  obtain ⟨q, hq⟩ : ∃ q, callEach (hooks.map fun h => h.finalize st.view o) s = q := ⟨_, rfl⟩
  rw [hq]
  obtain ⟨s', o'⟩ := q
  cases o' with
  | none => exact ⟨rfl, .inl rfl⟩
  | some e => exact ⟨rfl, .inr ⟨e, rfl⟩⟩

omit [Field K] [LinearOrder K] in
theorem hookFinal_spec (outer : Nat) (R : SolveState K × σ × BodyEnd K) : (hookFinal hooks outer R).1 = R.1 ∧
    ((hookFinal hooks outer R).2.2 = R.2.2 ∨ ∃ e, (hookFinal hooks outer R).2.2 = .raised e) := by
  obtain ⟨st, s, b⟩ := R
  cases b with
  | hangs => exact ⟨rfl, .inl rfl⟩
  | leave => exact closeRound_spec hooks outer st s .leave
  | again o c => exact closeRound_spec hooks o st s (.again o c)
  | raised e => exact closeRound_spec hooks outer st s (.raised e)

theorem hookLoop_succ (n outer : Nat) (c0 : List K) (st : SolveState K) (s : σ) : hookLoop env hooks (n + 1) outer c0 st s =
    (match hookFinal hooks outer (hookBody env hooks outer c0 st s) with
    | (st', s', .leave) => some ((finish c0 st').1, s', (finish c0 st').2)
    | (st', s', .again outer' c0') => hookLoop env hooks n outer' c0' st' s'
    | (st', s', .raised e) => some (st', s', .raised e)
    | (st', s', .hangs) => some (st', s', .hangs)) := rfl

theorem hookLoop_returned (G : List K → Prop) (hG : FromHybrid env G) : ∀ (n outer : Nat) (c0 : List K) (st : SolveState K) (s : σ),
    G c0 → (env.hybrid = none → st.converged = false) → ∀ st' s' x, hookLoop env hooks n outer c0 st s = some (st', s', .returned x) →
    (∃ r, env.resid x = .ok r ∧ r ≤ env.tol) ∧ (G x ∨ ∀ c ∈ x, 0 ≤ c) ∧ st'.coverages = some x ∧
    ∃ e c, st'.archived = st.archived ++ [.coverages x, .error e, .guess c]
  | 0, _, _, _, _, _, _ => by rintro st' s' x h; cases h
  | n + 1, outer, c0, st, s, hc0, hst => by
    intro st' s' x h
    rw [hookLoop_succ] at h
    have spec := hookBody_spec env hooks outer c0 st s
    obtain ⟨f1, f2⟩ := hookFinal_spec hooks outer (hookBody env hooks outer c0 st s)
    generalize hookBody env hooks outer c0 st s = R at *
    generalize hookFinal hooks outer R = Q at *
    obtain ⟨st1, s1, b⟩ := Q
    dsimp only at f1 f2
    subst f1
    cases b with
    | leave =>
      have h' := Option.some.inj h
      have hb : R.2.2 = .leave := f2.elim Eq.symm (fun ⟨e, he⟩ => nomatch he)
      obtain ⟨g1, g2, g3, e, g4, g5⟩ := finish_returned (c0 := c0) (st := R.1) (st' := st') (x := x)
        (Prod.ext (Prod.mk.inj h').1 (Prod.mk.inj (Prod.mk.inj h').2).2)
      rw [spec.arch] at g5
      have good : GoodKept env c0 R.1 := (spec.leave hb).elim (fun h' => spec.conv g1 (hst h')) And.right
      obtain ⟨x', r, h1, h2, h3, h4⟩ := good
      have : x' = x := Option.some.inj (h1.symm.trans g2)
      subst this
      exact ⟨⟨r, h2, h3⟩, h4.imp (fun he => by rw [he]; exact hc0) id, g3, e, c0, g5⟩
    | again o c =>
      have hb : R.2.2 = .again o c := f2.elim Eq.symm (fun ⟨e, he⟩ => nomatch he)
      obtain ⟨-, g, hg, hgc⟩ := spec.next o c hb
      obtain ⟨h1, h2, h3, e, c', h4⟩ := hookLoop_returned G hG n o c _ s1 (hG g _ outer c hg hgc) (fun h' => by rw [hg] at h'; cases h') st' s' x h
      exact ⟨h1, h2, h3, e, c', by rw [h4, spec.arch]⟩
    | raised e => cases Option.some.inj h
    | hangs => cases Option.some.inj h

theorem hookSteady_start {constrain : List K → Py (List K)} {n : Nat} {c0 : Option (List K)} {st st' : SolveState K} {s s' : σ} {out : Outcome K}
    (h : hookSteady env hooks constrain n c0 st s = some (st', s', out)) :
    (∃ e, out = .raised e ∧ st' = st) ∨ ∃ c c', constrain c = .ok c' ∧ (c0 = some c ∨ c0 = none ∧ ∃ g, env.hybrid = some g ∧ g st.coverages 0 = .ok c) ∧
      hookLoop env hooks n 1 c' { st with converged := false } s = some (st', s', out) := by
  unfold hookSteady at h
  dsimp only at h
  split at h
  · rename_i e he
    cases Option.some.inj h
    exact .inl ⟨e, rfl, rfl⟩
  · rename_i c' hc'
    right
    cases c0 with
    | some c1 =>
      obtain ⟨c, hc, hcc⟩ := bind_ok.mp hc'
      exact ⟨c, c', hcc, .inl (congrArg some (pure_ok.mp hc)), h⟩
    | none =>
      dsimp only at hc'
      cases hh : env.hybrid with
      | none => rw [hh] at hc'; cases hc'
      | some g =>
        rw [hh] at hc'
        obtain ⟨c, hc, hcc⟩ := bind_ok.mp hc'
        exact ⟨c, c', hcc, .inr ⟨rfl, g, rfl, hc⟩, h⟩

/-- **C112** Whatever the plugins compute, write or raise: coverages returned have a residual of at most the tolerance, are
the ones the solver keeps, and are archived with their error and the guess. -/
theorem C112_residual (constrain : List K → Py (List K)) (n : Nat) (c0 : Option (List K)) (st st' : SolveState K) (s s' : σ) (x : List K)
    (h : hookSteady env hooks constrain n c0 st s = some (st', s', .returned x)) :
    (∃ r, env.resid x = .ok r ∧ r ≤ env.tol) ∧ st'.coverages = some x ∧
      ∃ e c, st'.archived = st.archived ++ [.coverages x, .error e, .guess c] := by
  rcases hookSteady_start env hooks h with ⟨e, h', -⟩ | ⟨c, c', -, -, h'⟩
  · cases h'
  · obtain ⟨h1, -, h3, h4⟩ := hookLoop_returned env hooks (fun _ => True) (fun _ _ _ _ _ _ => trivial) n 1 c' _ s trivial (fun _ => rfl) st' s' x h'
    exact ⟨h1, h3, h4⟩

/-! ## Plugins that do not raise -/

/-- The plugins do not raise, in states with `Inv`, and `rel` reads a record of the calls off their state. -/
structure Tracks (env : SolveEnv K) (hooks : List (Hook K σ)) (Inv : σ → Prop) (rel : σ → List PluginCall) : Prop where
  setup : ∀ v o s, Inv s → ∃ s', callEach (hooks.map fun h => h.setup v o) s = (s', none) ∧ Inv s' ∧
    rel s' = rel s ++ allCalls env.plugins (.setup · o)
  step : ∀ x e i o s, Inv s → ∃ s', hookSteps hooks ⟨some x, some e⟩ i o s = (s', none) ∧ Inv s' ∧ rel s' = rel s ++ stepCalls env.plugins i o
  finalize : ∀ v o s, Inv s → ∃ s', callEach (hooks.map fun h => h.finalize v o) s = (s', none) ∧ Inv s' ∧
    rel s' = rel s ++ allCalls env.plugins (.finalize · o)

/-- A state with the record of calls put in. -/
def withCalls (st : SolveState K) (l : List PluginCall) : SolveState K := { st with calls := l }

variable {hooks} {Inv : σ → Prop} {rel : σ → List PluginCall}

theorem hookInner_tracks (T : Tracks env hooks Inv rel) (outer : Nat) (fin : IterEnd) :
    ∀ (items : List (List K × K)) (nt : Nat) (st : SolveState K) (s : σ), Inv s → Inv (hookInner env hooks outer fin nt st s items).2.1 ∧
      innerLoop env outer fin nt (withCalls st (rel s)) items = (withCalls (hookInner env hooks outer fin nt st s items).1
        (rel (hookInner env hooks outer fin nt st s items).2.1), (hookInner env hooks outer fin nt st s items).2.2)
  | [], nt, st, s, hs => ⟨hs, rfl⟩
  | (x, err) :: rest, nt, st, s, hs => by
    rw [hookInner_cons]
    unfold innerLoop
    cases hr : env.resid x with
    | error e => exact ⟨hs, rfl⟩
    | ok r =>
      dsimp only
      by_cases hc : ¬ env.maxIter < ((nt + 1 : Nat) : Int) ∧ err < env.tol
      · rw [if_pos hc, if_pos hc]
        by_cases hrt : r < env.tol
        · rw [if_pos hrt, if_pos hrt]
          by_cases hx : x = []
          · rw [if_pos hx, if_pos hx]; exact ⟨hs, rfl⟩
          · rw [if_neg hx, if_neg hx]
            by_cases hn : x.any (fun c => decide (c < 0)) = true
            · rw [if_pos hn, if_pos hn]; exact ⟨hs, rfl⟩
            · rw [if_neg hn, if_neg hn]; exact ⟨hs, rfl⟩
        · rw [if_neg hrt, if_neg hrt]
          obtain ⟨s', h1, h2, h3⟩ := T.step x r (nt + 1) outer s hs
          rw [h1]
          obtain ⟨i1, i2⟩ := hookInner_tracks T outer fin rest (nt + 1) { st with coverages := some x, error := some r } s' h2
          refine ⟨i1, ?_⟩
          rw [h3] at i2
          exact i2
      · rw [if_neg hc, if_neg hc]
        by_cases hm : env.maxIter < ((nt + 1 : Nat) : Int)
        · rw [if_pos hm, if_pos hm]; exact ⟨hs, rfl⟩
        · rw [if_neg hm, if_neg hm]
          obtain ⟨s', h1, h2, h3⟩ := T.step x err (nt + 1) outer s hs
          rw [h1]
          obtain ⟨i1, i2⟩ := hookInner_tracks T outer fin rest (nt + 1) { st with coverages := some x, error := some err } s' h2
          refine ⟨i1, ?_⟩
          rw [h3] at i2
          exact i2

theorem hookBody_tracks (T : Tracks env hooks Inv rel) (outer : Nat) (c0 : List K) (st : SolveState K) (s : σ) (hs : Inv s) :
    Inv (hookBody env hooks outer c0 st s).2.1 ∧ outerBody env outer c0 (withCalls st (rel s)) =
      (withCalls (hookBody env hooks outer c0 st s).1 (rel (hookBody env hooks outer c0 st s).2.1), (hookBody env hooks outer c0 st s).2.2) := by
  cases hr : env.resid c0 with
  | error e =>
    unfold hookBody outerBody
    rw [hr]
    exact ⟨hs, rfl⟩
  | ok r =>
    by_cases hg : r ≤ env.tol ∧ env.singlePt = false
    · unfold hookBody outerBody
      rw [hr]
      dsimp only
      rw [if_pos hg, if_pos hg]
      cases he : env.goodError c0 with
      | error e => exact ⟨hs, rfl⟩
      | ok err => exact ⟨hs, rfl⟩
    · rw [hookBody_iter env hooks hr hg, outerBody_iter env hr hg]
      obtain ⟨s', h1, h2, h3⟩ := T.setup st.view outer s hs
      rw [h1]
      obtain ⟨i1, i2⟩ := hookInner_tracks env T outer (env.newton c0).2 (env.newton c0).1 0 st s' h2
      have e : afterSetup env outer (withCalls st (rel s)) = withCalls st (rel s') := by rw [h3]; rfl
      rw [e, i2]
      dsimp only
      generalize hookInner env hooks outer (env.newton c0).2 0 st s' (env.newton c0).1 = R at *
      obtain ⟨st2, s2, b⟩ := R
      cases b <;> exact ⟨i1, rfl⟩

theorem hookLoop_tracks (T : Tracks env hooks Inv rel) : ∀ (n outer : Nat) (c0 : List K) (st : SolveState K) (s : σ), Inv s →
    (hookLoop env hooks n outer c0 st s).map (fun q => (withCalls q.1 (rel q.2.1), q.2.2)) = outerLoop env n outer c0 (withCalls st (rel s))
  | 0, _, _, _, _, _ => rfl
  | n + 1, outer, c0, st, s, hs => by
    rw [hookLoop_succ, outerLoop_succ]
    obtain ⟨h1, h2⟩ := hookBody_tracks env T outer c0 st s hs
    rw [h2]
    generalize hookBody env hooks outer c0 st s = R at *
    obtain ⟨st1, s1, b⟩ := R
    dsimp only at h1 ⊢
    cases b with
    | hangs => rfl
    | leave =>
      obtain ⟨s', g1, g2, g3⟩ := T.finalize st1.view outer s1 h1
      unfold hookFinal finalizeAll
      dsimp only
      unfold closeRound
      rw [g1]
      dsimp only [Option.map]
      unfold finish
      rw [g3]
      unfold withCalls
      dsimp only
      split
      · split <;> rfl
      · rfl
    | again o c =>
      obtain ⟨s', g1, g2, g3⟩ := T.finalize st1.view o s1 h1
      unfold hookFinal finalizeAll
      dsimp only
      unfold closeRound
      rw [g1]
      dsimp only
      rw [hookLoop_tracks T n o c st1 s' g2, g3]
      rfl
    | raised e =>
      obtain ⟨s', g1, g2, g3⟩ := T.finalize st1.view outer s1 h1
      unfold hookFinal finalizeAll
      dsimp only
      unfold closeRound
      rw [g1]
      dsimp only [Option.map]
      rw [g3]
      rfl

theorem hookSteady_tracks (T : Tracks env hooks Inv rel) (constrain : List K → Py (List K)) (n : Nat) (c0 : Option (List K)) (st : SolveState K)
    (s : σ) (hs : Inv s) :
    (hookSteady env hooks constrain n c0 st s).map (fun q => (withCalls q.1 (rel q.2.1), q.2.2)) =
      getSteady env constrain n c0 (withCalls st (rel s)) := by
  unfold hookSteady getSteady
  dsimp only
  have key : ∀ start : Py (List K), (match start with
      | .error e => some (st, s, (.raised e : Outcome K))
      | .ok c => hookLoop env hooks n 1 c { st with converged := false } s : Option (SolveState K × σ × Outcome K)).map (fun q => (withCalls q.1 (rel q.2.1), q.2.2)) =
      (match start with
      | .error e => some (withCalls st (rel s), (.raised e : Outcome K))
      | .ok c => outerLoop env n 1 c { withCalls st (rel s) with converged := false }) := by
    intro start
    cases start with
    | error e => rfl
    | ok c => exact hookLoop_tracks env T n 1 c _ s hs
  exact key _

/-- The methods of the plugin do not raise. -/
def Hook.Quiet (h : Hook K σ) : Prop :=
  (∀ v o s, (h.setup v o s).2 = none) ∧ (∀ v i o s, (h.step v i o s).2 = none) ∧ ∀ v o s, (h.finalize v o s).2 = none

theorem callEach_quiet : ∀ (fs : List (σ → σ × Option PyErr)) (s : σ), (∀ f ∈ fs, ∀ s, (f s).2 = none) → ∃ s', callEach fs s = (s', none)
  | [], s, _ => ⟨s, rfl⟩
  | f :: fs, s, h => by
    obtain ⟨q, hq⟩ : ∃ q, f s = q := ⟨_, rfl⟩
    obtain ⟨s1, o⟩ := q
    have ho : o = none := by
      have := h f List.mem_cons_self s
      rw [hq] at this
      exact this
    subst ho
    obtain ⟨s', hs'⟩ := callEach_quiet fs s1 (fun g hg => h g (List.mem_cons_of_mem _ hg))
    refine ⟨s', ?_⟩
    unfold callEach
    rw [hq]
    exact hs'

/-- **C112** Plugins that do not raise leave the result alone: the coverages kept, the error, what is archived and what is
returned or raised are those of the search without plugins. (The list of plugins of C32 is not used by the search with
plugins that have a state, so it is empty here.) -/
theorem C112_quiet (hooks : List (Hook K σ)) (he : env.plugins = []) (hq : ∀ h ∈ hooks, h.Quiet) (constrain : List K → Py (List K)) (n : Nat) (c0 : Option (List K))
    (st : SolveState K) (s : σ) :
    (hookSteady env hooks constrain n c0 st s).map (fun q => (q.1.coverages, q.1.error, q.1.archived, q.2.2)) =
      (getSteady env constrain n c0 st).map (fun q => (q.1.coverages, q.1.error, q.1.archived, q.2)) := by
  have T : Tracks env hooks (fun _ => True) (fun _ => st.calls) := by
    refine ⟨fun v o s _ => ?_, fun x e i o s _ => ?_, fun v o s _ => ?_⟩
    · obtain ⟨s', hs'⟩ := callEach_quiet (hooks.map fun h => h.setup v o) s
        (fun f hf => by obtain ⟨h, hh, rfl⟩ := List.mem_map.mp hf; exact (hq h hh).1 v o)
      exact ⟨s', hs', trivial, by rw [he]; exact (List.append_nil _).symm⟩
    · obtain ⟨s', hs'⟩ := callEach_quiet (hooks.filterMap fun h => if i % h.interval = 0 then some (h.step ⟨some x, some e⟩ i o) else none) s
        (fun f hf => by
          obtain ⟨h, hh, hf'⟩ := List.mem_filterMap.mp hf
          split at hf'
          · cases hf'; exact (hq h hh).2.1 _ i o
          · cases hf')
      exact ⟨s', hs', trivial, by rw [he]; exact (List.append_nil _).symm⟩
    · obtain ⟨s', hs'⟩ := callEach_quiet (hooks.map fun h => h.finalize v o) s
        (fun f hf => by obtain ⟨h, hh, rfl⟩ := List.mem_map.mp hf; exact (hq h hh).2.2 v o)
      exact ⟨s', hs', trivial, by rw [he]; exact (List.append_nil _).symm⟩
  have key := hookSteady_tracks env T constrain n c0 st s trivial
  have hst : withCalls st st.calls = st := rfl
  rw [hst] at key
  rw [← key, Option.map_map]
  rfl

/-- A plugin that writes down its calls. -/
def logHook (interval index : Nat) : Hook K (List PluginCall) where
  interval := interval
  setup _ o s := (s ++ [.setup index o], none)
  step _ i o s := (s ++ [.step index i o], none)
  finalize _ o s := (s ++ [.finalize index o], none)

omit [Field K] [LinearOrder K] in
theorem callEach_log (f : Nat → PluginCall) : ∀ (l : List (SolvePlugin × Nat)) (s : List PluginCall),
    callEach (l.map fun p => fun s : List PluginCall => (s ++ [f p.2], (none : Option PyErr))) s = (s ++ l.map (fun p => f p.2), none)
  | [], s => by simp [callEach]
  | p :: l, s => by
    show callEach (l.map fun p => fun s : List PluginCall => (s ++ [f p.2], (none : Option PyErr))) (s ++ [f p.2]) = _
    rw [callEach_log f l]
    simp

omit [Field K] [LinearOrder K] in
theorem callEach_logSteps (i o : Nat) (v : SolverView K) : ∀ (l : List (SolvePlugin × Nat)) (s : List PluginCall),
    hookSteps (l.map fun p => (logHook p.1.interval p.2 : Hook K (List PluginCall))) v i o s =
      (s ++ l.filterMap (fun p => if i % p.1.interval = 0 then some (.step p.2 i o) else none), none)
  | [], s => by simp [hookSteps, callEach]
  | p :: l, s => by
    have ih := callEach_logSteps i o v l
    unfold hookSteps at ih ⊢
    rw [List.map_cons, List.filterMap_cons, List.filterMap_cons]
    by_cases h : i % p.1.interval = 0
    · have h' : i % (logHook p.1.interval p.2 : Hook K (List PluginCall)).interval = 0 := h
      rw [if_pos h, if_pos h']
      dsimp only
      unfold callEach
      show callEach _ (s ++ [.step p.2 i o]) = _
      rw [ih]
      simp
    · have h' : ¬ i % (logHook p.1.interval p.2 : Hook K (List PluginCall)).interval = 0 := h
      rw [if_neg h, if_neg h']
      exact ih s

omit [Field K] [LinearOrder K] in
theorem zipIdx_allCalls (plugins : List SolvePlugin) (f : Nat → PluginCall) :
    plugins.zipIdx.map (fun p => f p.2) = allCalls plugins f := by
  unfold allCalls
  rw [List.range_eq_range', ← List.zipIdx_map_snd 0 plugins, List.map_map]
  rfl

/-- **C112** The calls are those of the protocol of C32: plugins that write down their calls end up with the record the
search of C31 and C32 keeps, and with the same result. -/
theorem C112_protocol (constrain : List K → Py (List K)) (n : Nat) (c0 : Option (List K)) (st : SolveState K) :
    (hookSteady env (env.plugins.zipIdx.map fun p => logHook p.1.interval p.2) constrain n c0 st st.calls).map
      (fun q => ({ q.1 with calls := q.2.1 }, q.2.2)) = getSteady env constrain n c0 st := by
  have T : Tracks env (env.plugins.zipIdx.map fun p => (logHook p.1.interval p.2 : Hook K (List PluginCall))) (fun _ => True) id := by
    refine ⟨fun v o s _ => ?_, fun x e i o s _ => ?_, fun v o s _ => ?_⟩
    · refine ⟨s ++ allCalls env.plugins (.setup · o), ?_, trivial, rfl⟩
      rw [← zipIdx_allCalls, List.map_map]
      exact callEach_log (.setup · o) _ s
    · exact ⟨_, callEach_logSteps i o _ _ s, trivial, rfl⟩
    · refine ⟨s ++ allCalls env.plugins (.finalize · o), ?_, trivial, rfl⟩
      rw [← zipIdx_allCalls, List.map_map]
      exact callEach_log (.finalize · o) _ s
  exact hookSteady_tracks env T constrain n c0 st st.calls trivial

/-! ## Plugins that raise -/

/-- The error shown to the plugins at an item: its norm, or its residual if the norm is below the tolerance. -/
def shownError (it : List K × K) (r : K) : K := if it.2 < env.tol then r else it.2

theorem hookInner_goes (hooks : List (Hook K σ)) (outer : Nat) (fin : IterEnd) {nt : Nat} {it : List K × K} (h : GoesOn env nt it) (st : SolveState K)
    (s : σ) (rest : List (List K × K)) : ∃ r, env.resid it.1 = .ok r ∧ hookInner env hooks outer fin nt st s (it :: rest) =
      (match hookSteps hooks ⟨some it.1, some (shownError env it r)⟩ (nt + 1) outer s with
      | (s', none) => hookInner env hooks outer fin (nt + 1) { st with coverages := some it.1, error := some (shownError env it r) } s' rest
      | (s', some e) => ({ st with coverages := some it.1, error := some (shownError env it r) }, s', .raised e)) := by
  obtain ⟨r, hr, hm, hn⟩ := h
  obtain ⟨x, err⟩ := it
  refine ⟨r, hr, ?_⟩
  rw [hookInner_cons, hr]
  dsimp only
  have hm' : ¬ env.maxIter < ((nt + 1 : Nat) : Int) := not_lt.mpr hm
  by_cases he : err < env.tol
  · rw [if_pos ⟨hm', he⟩, if_neg (fun h => hn ⟨he, h⟩)]
    have : shownError env (x, err) r = r := if_pos he
    rw [this]
  · rw [if_neg (fun h => he h.2), if_neg hm']
    have : shownError env (x, err) r = err := if_neg he
    rw [this]

theorem hookInner_stops (hooks : List (Hook K σ)) (outer : Nat) (fin : IterEnd) {nt : Nat} {it : List K × K} (h : ¬ GoesOn env nt it)
    (st : SolveState K) (s : σ) (rest : List (List K × K)) : (hookInner env hooks outer fin nt st s (it :: rest)).2.1 = s := by
  obtain ⟨x, err⟩ := it
  rw [hookInner_cons]
  cases hr : env.resid x with
  | error e => rfl
  | ok r =>
    dsimp only
    by_cases hc : ¬ env.maxIter < ((nt + 1 : Nat) : Int) ∧ err < env.tol
    · rw [if_pos hc]
      by_cases hrt : r < env.tol
      · rw [if_pos hrt]
        split
        · rfl
        · split <;> rfl
      · exact absurd ⟨r, hr, not_lt.mp hc.1, fun h => hrt h.2⟩ h
    · rw [if_neg hc]
      by_cases hm : env.maxIter < ((nt + 1 : Nat) : Int)
      · rw [if_pos hm]
      · exact absurd ⟨r, hr, not_lt.mp hm, fun h => hc ⟨hm, h.1⟩⟩ h

theorem hookInner_root (hooks : List (Hook K σ)) (outer : Nat) (fin : IterEnd) {nt : Nat} {it : List K × K} (h : IsRoot env nt it)
    (st : SolveState K) (s : σ) (rest : List (List K × K)) : hookInner env hooks outer fin nt st s (it :: rest) =
      ({ st with coverages := some it.1, error := some it.2, converged := true }, s, .success) := by
  obtain ⟨r, hr, hm, he, hrt, hx, hn⟩ := h
  obtain ⟨x, err⟩ := it
  rw [hookInner_cons, hr]
  dsimp only
  rw [if_pos ⟨not_lt.mpr hm, he⟩, if_pos hrt, if_neg hx, if_neg (fun h => any_neg.mp h hn)]

/-- The plugins raise `e` in step `k + 1` of an iteration and nowhere else. -/
structure RaisesAt (hooks : List (Hook K σ)) (k : Nat) (e : PyErr) : Prop where
  setup : ∀ v o s, (callEach (hooks.map fun h => h.setup v o) s).2 = none
  before : ∀ v i o s, i ≤ k → (hookSteps hooks v i o s).2 = none
  raises : ∀ v o s, (hookSteps hooks v (k + 1) o s).2 = some e
  finalize : ∀ v o s, (callEach (hooks.map fun h => h.finalize v o) s).2 = none

theorem hookInner_raises {hooks : List (Hook K σ)} {k : Nat} {e : PyErr} (H : RaisesAt hooks k e) (outer : Nat) (fin : IterEnd) :
    ∀ (items : List (List K × K)) (nt j : Nat) (it : List K × K) (st : SolveState K) (s : σ), nt + j = k → items[j]? = some it →
      (∀ i jt, i ≤ j → items[i]? = some jt → GoesOn env (nt + i) jt) →
      ∃ s' y, hookInner env hooks outer fin nt st s items = ({ st with coverages := some it.1, error := some y }, s', .raised e)
  | [], _, _, _, _, _, _, h, _ => by simp at h
  | x :: rest, nt, j, it, st, s, hj, hit, hall => by
    have hgo : GoesOn env nt x := hall 0 x (Nat.zero_le _) rfl
    obtain ⟨r, -, heq⟩ := hookInner_goes env hooks outer fin hgo st s rest
    rw [heq]
    obtain ⟨q, hq⟩ : ∃ q, hookSteps hooks ⟨some x.1, some (shownError env x r)⟩ (nt + 1) outer s = q := ⟨_, rfl⟩
    obtain ⟨s1, o⟩ := q
    rw [hq]
    cases j with
    | zero =>
      have : x = it := by simpa using hit
      subst this
      have hk : nt = k := hj
      subst hk
      have ho := H.raises ⟨some x.1, some (shownError env x r)⟩ outer s
      rw [hq] at ho
      have ho : o = some e := ho
      subst ho
      exact ⟨s1, _, rfl⟩
    | succ j =>
      have ho := H.before ⟨some x.1, some (shownError env x r)⟩ (nt + 1) outer s (by omega)
      rw [hq] at ho
      have ho : o = none := ho
      subst ho
      obtain ⟨s', y, h⟩ := hookInner_raises H outer fin rest (nt + 1) j it { st with coverages := some x.1, error := some (shownError env x r) } s1
        (by omega) (by simpa using hit) (fun i jt hi h => by
          have := hall (i + 1) jt (by omega) (by simpa using h)
          rwa [show nt + 1 + i = nt + (i + 1) by omega])
      exact ⟨s', y, h⟩

theorem hookSteady_some (hooks : List (Hook K σ)) {constrain : List K → Py (List K)} {c c' : List K} (hc : constrain c = .ok c') (n : Nat)
    (st : SolveState K) (s : σ) :
    hookSteady env hooks constrain n (some c) st s = hookLoop env hooks n 1 c' { st with converged := false } s := by
  unfold hookSteady
  dsimp only
  rw [show ((pure c : Py (List K)) >>= constrain) = .ok c' from hc]

theorem hookBody_raises {hooks : List (Hook K σ)} {k : Nat} {e : PyErr} (H : RaisesAt hooks k e) (outer : Nat) {c0 : List K} {st : SolveState K}
    {s : σ} {r : K} (hr : env.resid c0 = .ok r) (hg : ¬ GoodGuess env c0) {m : Nat} (hm : StopsAfter env 0 (env.newton c0).1 m) (hk : k < m)
    {it : List K × K} (hit : (env.newton c0).1[k]? = some it) :
    ∃ s' y, hookBody env hooks outer c0 st s =
      ({ st with coverages := some it.1, error := some y }, s', catchZero env (some it.1) outer e) := by
  rw [hookBody_iter env hooks hr (fun h => hg ⟨r, hr, h⟩)]
  obtain ⟨q, hq⟩ : ∃ q, callEach (hooks.map fun h => h.setup st.view outer) s = q := ⟨_, rfl⟩
  obtain ⟨s1, o⟩ := q
  have ho := H.setup st.view outer s
  rw [hq] at ho
  have ho : o = none := ho
  subst ho
  rw [hq]
  dsimp only
  obtain ⟨s', y, h⟩ := hookInner_raises env H outer (env.newton c0).2 (env.newton c0).1 0 k it st s1 (Nat.zero_add _) hit
    (fun i jt hi h => hm.1 i jt (by omega) h)
  rw [h]
  exact ⟨s', y, rfl⟩

omit [Field K] [LinearOrder K] in
theorem closeRound_quiet {hooks : List (Hook K σ)} (o : Nat) (st : SolveState K) (s : σ) (b : BodyEnd K)
    (h : (callEach (hooks.map fun h => h.finalize st.view o) s).2 = none) :
    closeRound hooks o st s b = (st, (callEach (hooks.map fun h => h.finalize st.view o) s).1, b) := by
  unfold closeRound
  generalize callEach (hooks.map fun h => h.finalize st.view o) s = q at *
  obtain ⟨s', o'⟩ := q
  cases h
  rfl

/-- **C112** An error other than `ZeroDivisionError` raised by a plugin in a step comes out of the search, after the plugins
have been finalized; the solver keeps the coverages of that step and nothing is archived. -/
theorem C112_raised {hooks : List (Hook K σ)} {k : Nat} {e : PyErr} (H : RaisesAt hooks k e) (he : e ≠ .ZeroDivisionError)
    (constrain : List K → Py (List K)) (n : Nat) (c c' : List K) (st : SolveState K) (s : σ) (hc : constrain c = .ok c') (r : K)
    (hr : env.resid c' = .ok r) (hg : ¬ GoodGuess env c') (m : Nat) (hm : StopsAfter env 0 (env.newton c').1 m) (hk : k < m)
    (it : List K × K) (hit : (env.newton c').1[k]? = some it) :
    ∃ st' s1 s', hookSteady env hooks constrain (n + 1) (some c) st s = some (st', s', .raised e) ∧ st'.coverages = some it.1 ∧
      st'.archived = st.archived ∧ s' = (callEach (hooks.map fun h => h.finalize ⟨st'.coverages, st'.error⟩ 1) s1).1 := by
  rw [hookSteady_some env hooks hc, hookLoop_succ]
  obtain ⟨s1, y, hb⟩ := hookBody_raises env H 1 (st := { st with converged := false }) (s := s) hr hg hm hk hit
  have hz : catchZero env (some it.1) 1 e = .raised e := by
    unfold catchZero
    rw [if_neg he]
  rw [hb, hz]
  unfold hookFinal
  dsimp only
  rw [closeRound_quiet _ _ _ _ (H.finalize _ _ _)]
  exact ⟨_, s1, _, rfl, rfl, rfl, rfl⟩

/-- **C112** (refuted) Errors of plugins do not all come out: `ZeroDivisionError` is taken for a failure of the iteration, so
the search gives up and returns `None` although the iteration would have reached a root. -/
theorem C112_zero_refuted {hooks : List (Hook K σ)} {k : Nat} (H : RaisesAt hooks k .ZeroDivisionError) (hh : env.hybrid = none)
    (constrain : List K → Py (List K)) (n : Nat) (c c' : List K) (st : SolveState K) (s : σ) (hc : constrain c = .ok c') (r : K)
    (hr : env.resid c' = .ok r) (hg : ¬ GoodGuess env c') (m : Nat) (hm : StopsAfter env 0 (env.newton c').1 m) (hk : k < m)
    (it jt : List K × K) (hit : (env.newton c').1[k]? = some it) (hjt : (env.newton c').1[m]? = some jt) (hroot : IsRoot env m jt) :
    (∃ st', getSteady env constrain (n + 1) (some c) st = some (st', .returned jt.1)) ∧
    ∃ st' s', hookSteady env hooks constrain (n + 1) (some c) st s = some (st', s', .none) := by
  refine ⟨(C31_found env constrain n c c' st hc).2 r m jt hr hg hm hjt hroot, ?_⟩
  rw [hookSteady_some env hooks hc, hookLoop_succ]
  obtain ⟨s1, y, hb⟩ := hookBody_raises env H 1 (st := { st with converged := false }) (s := s) hr hg hm hk hit
  have hz : catchZero env (some it.1) 1 .ZeroDivisionError = .leave := by
    unfold catchZero askHybrid
    rw [if_pos rfl, hh]
  rw [hb, hz]
  unfold hookFinal
  dsimp only
  rw [closeRound_quiet _ _ _ _ (H.finalize _ _ _)]
  exact ⟨_, _, rfl⟩

/-- **C112** (refuted) A root reached is not always returned: an error raised by `finalize` takes its place, the solver keeps
the coverages, and nothing is archived. -/
theorem C112_finalize_refuted (hooks : List (Hook K σ)) (e : PyErr) (hf : ∀ v o s, (callEach (hooks.map fun h => h.finalize v o) s).2 = some e)
    (constrain : List K → Py (List K)) (n : Nat) (c c' : List K) (st : SolveState K) (s : σ) (hc : constrain c = .ok c')
    (hg : GoodGuess env c') (err : K) (he : env.goodError c' = .ok err) :
    (∃ st', getSteady env constrain (n + 1) (some c) st = some (st', .returned c')) ∧
    ∃ st' s', hookSteady env hooks constrain (n + 1) (some c) st s = some (st', s', .raised e) ∧ st'.coverages = some c' ∧
      st'.archived = st.archived := by
  refine ⟨(C31_found env constrain n c c' st hc).1 ⟨hg, err, he⟩, ?_⟩
  obtain ⟨r, hr, h1, h2⟩ := hg
  have hb : hookBody env hooks 1 c' { st with converged := false } s =
      ({ st with converged := true, coverages := some c', error := some err }, s, .leave) := by
    unfold hookBody; rw [hr]; dsimp only; rw [if_pos ⟨h1, h2⟩, he]
  rw [hookSteady_some env hooks hc, hookLoop_succ, hb]
  unfold hookFinal
  dsimp only
  unfold closeRound
  obtain ⟨q, hq⟩ : ∃ q, callEach (hooks.map fun h => h.finalize
    ({ st with converged := true, coverages := some c', error := some err } : SolveState K).view 1) s = q := ⟨_, rfl⟩
  obtain ⟨s', o⟩ := q
  have ho := hf ({ st with converged := true, coverages := some c', error := some err } : SolveState K).view 1 s
  rw [hq] at ho
  have ho : o = some e := ho
  subst ho
  rw [hq]
  exact ⟨_, s', rfl, rfl, rfl⟩

/-! ## The plugin of the example -/

/-- The errors of the first items, as shown to the plugins. -/
def ErrorsOf (items : List (List K × K)) (m : Nat) (es : List K) : Prop :=
  es.length = m ∧ ∀ j it, j < m → items[j]? = some it → ∃ r, env.resid it.1 = .ok r ∧ es[j]? = some (if it.2 < env.tol then r else it.2)

omit [Field K] [LinearOrder K] in
theorem dump_steps (x : List K) (y : K) (i o : Nat) (s : DumpState K) (l : List K) (h : s.errors = some l) :
    hookSteps [dumpTrajectory] ⟨some x, some y⟩ i o s = ({ s with errors := some (l ++ [y]) }, none) := by
  unfold hookSteps
  have : ([dumpTrajectory] : List (Hook K (DumpState K))).filterMap
      (fun h => if i % h.interval = 0 then some (h.step ⟨some x, some y⟩ i o) else none) = [dumpTrajectory.step ⟨some x, some y⟩ i o] := by
    rw [List.filterMap_cons]
    have h1 : i % (dumpTrajectory : Hook K (DumpState K)).interval = 0 := Nat.mod_one i
    rw [if_pos h1]
    rfl
  rw [this]
  unfold callEach
  have h2 : dumpTrajectory.step ⟨some x, some y⟩ i o s = ({ s with errors := some (l ++ [y]) }, none) := by
    obtain ⟨errors, file⟩ := s
    have h : errors = some l := h
    subst h
    rfl
  rw [h2]
  rfl

theorem dump_inner (outer : Nat) (fin : IterEnd) : ∀ (m : Nat) (items : List (List K × K)) (nt : Nat) (st : SolveState K) (s : DumpState K) (l : List K),
    s.errors = some l → StopsAfter env nt items m → ∃ es, ErrorsOf env items m es ∧
      (hookInner env [dumpTrajectory] outer fin nt st s items).2.1 = ⟨some (l ++ es), s.file⟩ ∧
      ∀ it, items[m]? = some it → IsRoot env (nt + m) it →
        ∃ st' : SolveState K, hookInner env [dumpTrajectory] outer fin nt st s items = (⟨some it.1, some it.2, true, st'.calls, st'.archived⟩, ⟨some (l ++ es), s.file⟩, .success)
  | 0, items, nt, st, s, l, hl, hm => by
    have hs : s = ⟨some (l ++ []), s.file⟩ := by rw [List.append_nil, ← hl]
    refine ⟨[], ⟨rfl, fun j it h => absurd h (Nat.not_lt_zero _)⟩, ?_, ?_⟩
    · cases items with
      | nil => exact hs
      | cons x rest => exact (hookInner_stops env _ outer fin (nt := nt) (hm.2.2 x rfl) st s rest).trans hs
    · intro it hit hroot
      cases items with
      | nil => simp at hit
      | cons x rest =>
        have : x = it := by simpa using hit
        subst this
        rw [hookInner_root env _ outer fin (nt := nt) hroot, ← hs]
        exact ⟨st, rfl⟩
  | m + 1, items, nt, st, s, l, hl, hm => by
    cases items with
    | nil => exact absurd hm.2.1 (by simp)
    | cons x rest =>
      obtain ⟨r, hr, heq⟩ := hookInner_goes env [dumpTrajectory] outer fin (nt := nt) (hm.1 0 x (Nat.succ_pos _) rfl) st s rest
      rw [dump_steps _ _ _ _ s l hl] at heq
      dsimp only at heq
      have hm' : StopsAfter env (nt + 1) rest m := by
        refine ⟨fun j it hj hit => ?_, by simpa using hm.2.1, fun it hit => ?_⟩
        · have := hm.1 (j + 1) it (by omega) (by simpa using hit)
          rwa [show nt + (j + 1) = nt + 1 + j by omega] at this
        · have := hm.2.2 it (by simpa using hit)
          rwa [show nt + (m + 1) = nt + 1 + m by omega] at this
      obtain ⟨es, ⟨h1, h2⟩, h3, h4⟩ := dump_inner outer fin m rest (nt + 1)
        { st with coverages := some x.1, error := some (shownError env x r) } { s with errors := some (l ++ [shownError env x r]) }
        (l ++ [shownError env x r]) rfl hm'
      have happ : l ++ [shownError env x r] ++ es = l ++ (shownError env x r :: es) := by simp
      rw [happ] at h3 h4
      refine ⟨shownError env x r :: es, ⟨by rw [List.length_cons, h1], ?_⟩, by rw [heq]; exact h3, ?_⟩
      · intro j it hj hit
        cases j with
        | zero =>
          have : x = it := by simpa using hit
          subst this
          exact ⟨r, hr, rfl⟩
        | succ j => exact h2 j it (by omega) (by simpa using hit)
      · intro it hit hroot
        rw [heq]
        exact h4 it (by simpa using hit) (by rwa [show nt + 1 + m = nt + (m + 1) by omega])

/-- In any round: a guess that is not good, with a root after `m` items. -/
theorem dump_loop (n outer : Nat) (c' : List K) (st : SolveState K) (s : DumpState K) (r : K) (hr : env.resid c' = .ok r) (hg : ¬ GoodGuess env c')
    (m : Nat) (hm : StopsAfter env 0 (env.newton c').1 m) (it : List K × K) (hit : (env.newton c').1[m]? = some it) (hroot : IsRoot env m it) :
    ∃ st' es, hookLoop env [dumpTrajectory] (n + 1) outer c' st s = some (st', ⟨some es, .errors es⟩, .returned it.1) ∧
      ErrorsOf env (env.newton c').1 m es := by
  obtain ⟨es, h1, h2, h3⟩ := dump_inner env outer (env.newton c').2 m (env.newton c').1 0 st { s with errors := some [] } [] rfl hm
  obtain ⟨st', h4⟩ := h3 it hit (by rwa [Nat.zero_add])
  have hb : hookBody env [dumpTrajectory] outer c' st s =
      (⟨some it.1, some it.2, true, st'.calls, st'.archived⟩, ⟨some es, s.file⟩, .leave) := by
    rw [hookBody_iter env _ hr (fun h => hg ⟨r, hr, h⟩)]
    have hset : callEach (([dumpTrajectory] : List (Hook K (DumpState K))).map fun h => h.setup st.view outer) s = ({ s with errors := some [] }, none) := rfl
    rw [hset]
    dsimp only at h4 ⊢
    rw [h4]
    rfl
  rw [hookLoop_succ, hb]
  exact ⟨_, es, rfl, h1⟩

/-- **C112** (partial) For a guess that is not good and an iteration that reaches a root, the plugin of the example leaves in
`newton_traj.py` the errors of all steps before the root, in order, and does not disturb the search. Missing: good guesses and
searches with several guesses, for which it is false (`C112_good_guess_refuted`, `C112_guesses_refuted`). -/
theorem C112_dump_partial (constrain : List K → Py (List K)) (n : Nat) (c c' : List K) (st : SolveState K) (s : DumpState K)
    (hc : constrain c = .ok c') (r : K) (hr : env.resid c' = .ok r) (hg : ¬ GoodGuess env c') (m : Nat)
    (hm : StopsAfter env 0 (env.newton c').1 m) (it : List K × K) (hit : (env.newton c').1[m]? = some it) (hroot : IsRoot env m it) :
    ∃ st' s' es, hookSteady env [dumpTrajectory] constrain (n + 1) (some c) st s = some (st', s', .returned it.1) ∧ s'.file = .errors es ∧
      ErrorsOf env (env.newton c').1 m es := by
  rw [hookSteady_some env _ hc]
  obtain ⟨st', es, h1, h2⟩ := dump_loop env n 1 c' { st with converged := false } s r hr hg m hm it hit hroot
  exact ⟨st', _, es, h1, rfl, h2⟩

/-- **C112** (refuted) With a good guess the plugin of the example is finalized without having been set up: in a first search
its `AttributeError` takes the place of the coverages and the file is emptied; after an earlier search the file gets the errors
of that one. -/
theorem C112_good_guess_refuted (constrain : List K → Py (List K)) (n : Nat) (c c' : List K) (st : SolveState K) (s : DumpState K)
    (hc : constrain c = .ok c') (hg : GoodGuess env c') (err : K) (he : env.goodError c' = .ok err) :
    (s.errors = none → ∃ st', hookSteady env [dumpTrajectory] constrain (n + 1) (some c) st s = some (st', ⟨none, .empty⟩, .raised .AttributeError)) ∧
    ∀ l, s.errors = some l → ∃ st', hookSteady env [dumpTrajectory] constrain (n + 1) (some c) st s = some (st', ⟨some l, .errors l⟩, .returned c') := by
  obtain ⟨r, hr, h1, h2⟩ := hg
  have hb : hookBody env [dumpTrajectory] 1 c' { st with converged := false } s =
      ({ st with converged := true, coverages := some c', error := some err }, s, .leave) := by
    unfold hookBody; rw [hr]; dsimp only; rw [if_pos ⟨h1, h2⟩, he]
  rw [hookSteady_some env _ hc, hookLoop_succ, hb]
  obtain ⟨errors, file⟩ := s
  constructor
  · rintro h
    have h : errors = none := h
    subst h
    exact ⟨_, rfl⟩
  · rintro l h
    have h : errors = some l := h
    subst h
    exact ⟨_, rfl⟩

end

/-! ## Examples -/

/-- The iteration of the examples. -/
def exHookNewton : List ℚ → List (List ℚ × ℚ) × IterEnd
  | [y] => if y ≤ 1 then ([([1 / 2 + (y - 1 / 2) / 2], |y - 1 / 2| / 2), ([1 / 2 + (y - 1 / 2) / 4], |y - 1 / 2| / 4), ([1 / 2], 0)], .stopped)
    else ([([3], 5)], .stopped)
  | _ => ([], .raised .IndexError)

/-- A search over one coverage: the residual is its distance from a half; the iteration from a guess halves the distance
twice, or goes away from a guess above one. -/
def exHookEnv (hybrid : Option (Option (List ℚ) → Nat → Py (List ℚ))) : SolveEnv ℚ where
  resid x := match x with
    | [y] => .ok |y - 1 / 2|
    | _ => .error .IndexError
  goodError x := match x with
    | [y] => .ok |y - 1 / 2|
    | _ => .error .IndexError
  newton := exHookNewton
  tol := 1 / 100
  maxIter := 10
  hybrid := hybrid
  plugins := []
  singlePt := false

/-- `pure`, as what makes a guess physical. -/
def exAsIs : List ℚ → Py (List ℚ) := fun c => .ok c

/-- **C112** (refuted) With several guesses the file has the errors of the last one only. -/
theorem C112_guesses_refuted : ∃ (env : SolveEnv ℚ) (c : List ℚ) (st' : SolveState ℚ) (s' : DumpState ℚ),
    env.hybrid ≠ none ∧ (env.newton c).1.map Prod.snd = [5] ∧
    hookSteady env [dumpTrajectory] exAsIs 2 (some c) ⟨none, none, false, [], []⟩ ⟨none, .absent⟩ = some (st', s', .returned [1 / 2]) ∧
    s'.file = .errors [1 / 4, 1 / 8] :=
  ⟨exHookEnv (some fun _ _ => .ok [1]), [2], ⟨some [1 / 2], some 0, true, [], [.coverages [1 / 2], .error 0, .guess [1]]⟩, ⟨some [1 / 4, 1 / 8], .errors [1 / 4, 1 / 8]⟩,
    (fun h => nomatch h), by decide +kernel, by decide +kernel, rfl⟩

/-- A plugin that divides by zero in the second step. -/
def exZeroHook (e : PyErr) : Hook ℚ Nat where
  interval := 2
  setup _ _ s := (s + 1, none)
  step _ i _ s := if i = 2 then (s, some e) else (s + 10, none)
  finalize _ _ s := (s + 100, none)

theorem exZeroHook_raises (e : PyErr) : RaisesAt [exZeroHook e] 1 e := by
  refine ⟨fun _ _ _ => rfl, fun v i o s hi => ?_, fun v o s => ?_, fun _ _ _ => rfl⟩
  swap
  · unfold hookSteps exZeroHook
    simp [callEach]
  match i, hi with
  | 0, _ => rfl
  | 1, _ => rfl

theorem exHook_guess : ¬ GoodGuess (exHookEnv none) [1] := by
  rintro ⟨r, hr, hle, -⟩
  have hr : (|1 - 1 / 2| : ℚ) = r := Except.ok.inj hr
  subst hr
  revert hle
  show ¬ (|1 - 1 / 2| : ℚ) ≤ 1 / 100
  decide +kernel

theorem exHook_stops : StopsAfter (exHookEnv none) 0 ((exHookEnv none).newton [1]).1 2 := by
  have e : (exHookNewton [1]).1 = [([3 / 4], 1 / 4), ([5 / 8], 1 / 8), ([1 / 2], 0)] := by decide +kernel
  show StopsAfter _ 0 (exHookNewton [1]).1 2
  rw [e]
  refine ⟨fun j it hj hit => ?_, by simp, fun it hit => ?_⟩
  · match j, hj with
    | 0, _ =>
      cases Option.some.inj hit
      exact ⟨|3 / 4 - 1 / 2|, rfl, by decide, by decide +kernel⟩
    | 1, _ =>
      cases Option.some.inj hit
      exact ⟨|5 / 8 - 1 / 2|, rfl, by decide, by decide +kernel⟩
  · cases Option.some.inj hit
    rintro ⟨r, hr, -, h⟩
    have hr : (|1 / 2 - 1 / 2| : ℚ) = r := Except.ok.inj hr
    subst hr
    exact h (by show (0 : ℚ) < 1 / 100 ∧ |1 / 2 - 1 / 2| < (1 / 100 : ℚ); decide +kernel)

theorem exHook_item : ((exHookEnv none).newton [1]).1[2]? = some ([1 / 2], 0) := by
  show (exHookNewton [1]).1[2]? = _
  decide +kernel

theorem exHook_root : IsRoot (exHookEnv none) 2 ([1 / 2], 0) :=
  ⟨|1 / 2 - 1 / 2|, rfl, by decide, by show (0 : ℚ) < 1 / 100; decide +kernel, by show |1 / 2 - 1 / 2| < (1 / 100 : ℚ); decide +kernel, by simp,
    by simp⟩

/-- The hypotheses of `C112_dump_partial`, and the file. -/
example : (exHookEnv none).resid [1] = .ok |1 - 1 / 2| ∧ ¬ GoodGuess (exHookEnv none) [1] ∧
    StopsAfter (exHookEnv none) 0 ((exHookEnv none).newton [1]).1 2 ∧ IsRoot (exHookEnv none) 2 ([1 / 2], 0) ∧
    hookSteady (exHookEnv none) [dumpTrajectory] exAsIs 2 (some [1]) ⟨none, none, false, [], []⟩ ⟨none, .absent⟩ =
      some (⟨some [1 / 2], some 0, true, [], [.coverages [1 / 2], .error 0, .guess [1]]⟩, ⟨some [1 / 4, 1 / 8], .errors [1 / 4, 1 / 8]⟩, .returned [1 / 2]) :=
  ⟨rfl, exHook_guess, exHook_stops, exHook_root, by decide +kernel⟩

/-- An error of a plugin comes out, the plugin is finalized, and the solver keeps the coverages of the step. -/
example : RaisesAt [exZeroHook .KeyError] 1 .KeyError ∧
    hookSteady (exHookEnv none) [exZeroHook .KeyError] exAsIs 2 (some [1]) ⟨none, none, false, [], []⟩ 0 =
      some (⟨some [5 / 8], some (1 / 8), false, [], []⟩, 101, .raised .KeyError) :=
  ⟨exZeroHook_raises _, by decide +kernel⟩

/-- `ZeroDivisionError` does not. -/
example : RaisesAt [exZeroHook .ZeroDivisionError] 1 .ZeroDivisionError ∧
    hookSteady (exHookEnv none) [exZeroHook .ZeroDivisionError] exAsIs 2 (some [1]) ⟨none, none, false, [], []⟩ 0 =
      some (⟨some [5 / 8], some (1 / 8), false, [], []⟩, 101, .none) :=
  ⟨exZeroHook_raises _, by decide +kernel⟩

/-- A good guess. -/
example : GoodGuess (exHookEnv none) [1 / 2] ∧
    hookSteady (exHookEnv none) [dumpTrajectory] exAsIs 2 (some [1 / 2]) ⟨none, none, false, [], []⟩ ⟨none, .errors [1]⟩ =
      some (⟨some [1 / 2], some 0, true, [], []⟩, ⟨none, .empty⟩, .raised .AttributeError) ∧
    hookSteady (exHookEnv none) [dumpTrajectory] exAsIs 2 (some [1 / 2]) ⟨none, none, false, [], []⟩ ⟨some [1 / 4], .absent⟩ =
      some (⟨some [1 / 2], some 0, true, [], [.coverages [1 / 2], .error 0, .guess [1 / 2]]⟩, ⟨some [1 / 4], .errors [1 / 4]⟩, .returned [1 / 2]) :=
  ⟨⟨|1 / 2 - 1 / 2|, rfl, by show |1 / 2 - 1 / 2| ≤ (1 / 100 : ℚ); decide +kernel, rfl⟩, by decide +kernel, by decide +kernel⟩

/-- A plugin that does not raise, and one whose `finalize` does. -/
example : (⟨1, fun _ _ s => (s + 1, none), fun _ _ _ s => (s + 10, none), fun _ _ s => (s + 100, none)⟩ : Hook ℚ Nat).Quiet ∧
    hookSteady (exHookEnv none) [⟨1, fun _ _ s => (s + 1, none), fun _ _ _ s => (s + 10, none), fun _ _ s => (s + 100, none)⟩] exAsIs 2 (some [1])
      ⟨none, none, false, [], []⟩ 0 = some (⟨some [1 / 2], some 0, true, [], [.coverages [1 / 2], .error 0, .guess [1]]⟩, 121, .returned [1 / 2]) ∧
    hookSteady (exHookEnv none) [⟨1, fun _ _ s => (s + 1, none), fun _ _ _ s => (s + 10, none), fun _ _ s => (s + 100, some .IOError)⟩] exAsIs 2 (some [1])
      ⟨none, none, false, [], []⟩ 0 = some (⟨some [1 / 2], some 0, true, [], []⟩, 121, .raised .IOError) :=
  ⟨⟨fun _ _ _ => rfl, fun _ _ _ _ => rfl, fun _ _ _ => rfl⟩, by decide +kernel, by decide +kernel⟩

/-- Plugins that write down their calls. -/
example : (hookSteady { exHookEnv none with plugins := [⟨1, by decide⟩, ⟨2, by decide⟩] }
      (([⟨1, by decide⟩, ⟨2, by decide⟩] : List SolvePlugin).zipIdx.map fun p => logHook p.1.interval p.2) exAsIs 2 (some [1])
      ⟨none, none, false, [], []⟩ []).map (fun q => q.2.1) =
    some [.setup 0 1, .setup 1 1, .step 0 1 1, .step 0 2 1, .step 1 2 1, .finalize 0 1, .finalize 1 1] := by
  decide +kernel

end Verif
