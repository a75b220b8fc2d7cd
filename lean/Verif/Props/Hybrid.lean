import Verif.Model.Hybrid
import Verif.Props.DataFile
import Verif.Props.Local
import Verif.Props.Flow
/-
Property C99: where new guesses come from.
-/
namespace Verif
open Set
set_option linter.unusedSectionVars false

section
variable {K : Type} [Field K] [LinearOrder K] (env : SolveEnv K)

/-! ### When it is asked -/

/-- The last of the first `m` items, or what was there before. -/
def lastKept (before : Option (List K)) (items : List (List K × K)) (m : Nat) : Option (List K) :=
  match (items.take m).getLast? with
  | some it => some it.1
  | none => before

omit [Field K] [LinearOrder K] in
theorem lastKept_cons (before : Option (List K)) (it : List K × K) (items : List (List K × K)) (m : Nat) :
    lastKept before (it :: items) (m + 1) = lastKept (some it.1) items m := by
  unfold lastKept
  rw [List.take_succ_cons, List.getLast?_cons]
  cases (items.take m).getLast? <;> rfl

theorem innerLoop_kept (outer : Nat) (fin : IterEnd) : ∀ (items : List (List K × K)) (nt : Nat) (st : SolveState K),
    (innerLoop env outer fin nt st items).2 ≠ .success → ∃ m, StopsAfter env nt items m ∧
      (innerLoop env outer fin nt st items).1.coverages = lastKept st.coverages items m
  | [], nt, st, _ => ⟨0, ⟨fun j it h => absurd h (Nat.not_lt_zero _), Nat.le_refl _, by simp⟩, rfl⟩
  | (x, err) :: rest, nt, st, hns => by
    have stop : ∀ (st' : SolveState K) (b : InnerEnd), innerLoop env outer fin nt st ((x, err) :: rest) = (st', b) →
        ¬ GoesOn env nt (x, err) → st'.coverages = st.coverages → ∃ m, StopsAfter env nt ((x, err) :: rest) m ∧
      (innerLoop env outer fin nt st ((x, err) :: rest)).1.coverages = lastKept st.coverages ((x, err) :: rest) m := by
      intro st' b hb h1 h2
      refine ⟨0, ⟨fun j it h => absurd h (Nat.not_lt_zero _), Nat.zero_le _, ?_⟩, ?_⟩
      · intro it hit
        have : (x, err) = it := by simpa using hit
        subst this
        exact h1
      · rw [hb]; exact h2
    have go : ∀ (st' : SolveState K), innerLoop env outer fin nt st ((x, err) :: rest) = innerLoop env outer fin (nt + 1) st' rest →
        GoesOn env nt (x, err) → st'.coverages = some x → ∃ m, StopsAfter env nt ((x, err) :: rest) m ∧
      (innerLoop env outer fin nt st ((x, err) :: rest)).1.coverages = lastKept st.coverages ((x, err) :: rest) m := by
      intro st' hb h1 h2
      rw [hb] at hns ⊢
      obtain ⟨m, ⟨a1, a2, a3⟩, b⟩ := innerLoop_kept outer fin rest (nt + 1) st' hns
      refine ⟨m + 1, ⟨?_, by simpa using a2, ?_⟩, ?_⟩
      · intro j it hj hit
        cases j with
        | zero =>
          have : (x, err) = it := by simpa using hit
          subst this
          exact h1
        | succ j =>
          rw [List.getElem?_cons_succ] at hit
          have := a1 j it (by omega) hit
          rw [show nt + (j + 1) = nt + 1 + j by omega]
          exact this
      · intro it hit
        rw [List.getElem?_cons_succ] at hit
        rw [show nt + (m + 1) = nt + 1 + m by omega]
        exact a3 it hit
      · rw [b, h2, lastKept_cons]
    have eq : innerLoop env outer fin nt st ((x, err) :: rest) = (match env.resid x with
      | .error e => (st, .raised e)
      | .ok r =>
        if ¬ env.maxIter < ((nt + 1 : Nat) : Int) ∧ err < env.tol then
          if r < env.tol then
            if x = [] then (st, .raised .UnboundLocalError)
            else if x.any (fun c => decide (c < 0)) then (st, .failed)
            else ({ st with coverages := some x, error := some err, converged := true }, .success)
          else
            innerLoop env outer fin (nt + 1)
              { st with coverages := some x, error := some r, calls := st.calls ++ stepCalls env.plugins (nt + 1) outer } rest
        else if env.maxIter < ((nt + 1 : Nat) : Int) then (st, .failed)
        else
          innerLoop env outer fin (nt + 1)
            { st with coverages := some x, error := some err, calls := st.calls ++ stepCalls env.plugins (nt + 1) outer } rest) := rfl
    cases hr : env.resid x with
    | error e =>
      rw [hr] at eq
      refine stop _ _ eq ?_ rfl
      rintro ⟨r, h, -⟩; rw [hr] at h; cases h
    | ok r =>
      rw [hr] at eq
      dsimp only at eq
      have goes : GoesOn env nt (x, err) ↔ ((nt + 1 : Nat) : Int) ≤ env.maxIter ∧ ¬ (err < env.tol ∧ r < env.tol) := by
        constructor
        · rintro ⟨r', h, h'⟩
          rw [hr] at h; cases h
          exact h'
        · exact fun h => ⟨r, hr, h⟩
      by_cases hc : ¬ env.maxIter < ((nt + 1 : Nat) : Int) ∧ err < env.tol
      · rw [if_pos hc] at eq
        by_cases hrt : r < env.tol
        · rw [if_pos hrt] at eq
          have nogo : ¬ GoesOn env nt (x, err) := by rw [goes]; exact fun h => h.2 ⟨hc.2, hrt⟩
          by_cases hx : x = []
          · rw [if_pos hx] at eq
            exact stop _ _ eq nogo rfl
          · rw [if_neg hx] at eq
            by_cases hn : x.any (fun c => decide (c < 0)) = true
            · rw [if_pos hn] at eq
              exact stop _ _ eq nogo rfl
            · rw [if_neg hn] at eq
              rw [eq] at hns
              exact absurd rfl hns
        · rw [if_neg hrt] at eq
          exact go _ eq (goes.mpr ⟨not_lt.mp hc.1, fun h => hrt h.2⟩) rfl
      · rw [if_neg hc] at eq
        by_cases hm : env.maxIter < ((nt + 1 : Nat) : Int)
        · rw [if_pos hm] at eq
          refine stop _ _ eq ?_ rfl
          rw [goes]; exact fun h => absurd hm (not_lt.mpr h.1)
        · rw [if_neg hm] at eq
          exact go _ eq (goes.mpr ⟨not_lt.mp hm, fun h => hc ⟨hm, h.1⟩⟩) rfl

/-- C99: after a guess that led nowhere, the hybrid method is asked with the number of the guess and the last iterate the
search went on from; if there was none, the coverages kept before; its guess is the next. -/
theorem C99_round (outer : Nat) (c0 : List K) (st : SolveState K) (o : Nat) (g : List K)
    (h : (outerBody env outer c0 st).2 = .again o g) :
    o = outer + 1 ∧ ∃ hyb kept, env.hybrid = some hyb ∧ hyb kept outer = .ok g ∧ (outerBody env outer c0 st).1.coverages = kept ∧
      ((env.resid c0 = .error .ZeroDivisionError ∧ kept = st.coverages) ∨
       (GoodGuess env c0 ∧ env.goodError c0 = .error .ZeroDivisionError ∧ kept = some c0) ∨
       (¬ GoodGuess env c0 ∧ ∃ m, StopsAfter env 0 (env.newton c0).1 m ∧ kept = lastKept st.coverages (env.newton c0).1 m)) := by
  have spec := outerBody_spec env outer c0 st
  obtain ⟨ho, hyb, h1, h2⟩ := spec.next o g h
  refine ⟨ho, hyb, _, h1, h2, rfl, ?_⟩
  cases hr : env.resid c0 with
  | error e =>
    have eq : outerBody env outer c0 st = (st, catchZero env st.coverages outer e) := by unfold outerBody; rw [hr]
    rw [eq] at h ⊢
    left
    refine ⟨?_, rfl⟩
    unfold catchZero at h
    split at h
    · rename_i he; rw [he]
    · cases h
  | ok r =>
    right
    by_cases hg : r ≤ env.tol ∧ env.singlePt = false
    · left
      refine ⟨⟨r, hr, hg⟩, ?_⟩
      cases he : env.goodError c0 with
      | error e =>
        have eq : outerBody env outer c0 st = ({ st with converged := true, coverages := some c0 }, catchZero env (some c0) outer e) := by
          unfold outerBody; rw [hr]; dsimp only; rw [if_pos hg, he]
        rw [eq] at h ⊢
        refine ⟨?_, rfl⟩
        dsimp only at h
        unfold catchZero at h
        split at h
        · rename_i he; rw [he]
        · cases h
      | ok err =>
        have eq : outerBody env outer c0 st = ({ st with converged := true, coverages := some c0, error := some err }, .leave) := by
          unfold outerBody; rw [hr]; dsimp only; rw [if_pos hg, he]
        rw [eq] at h
        cases h
    · right
      refine ⟨fun ⟨r', hr', hg'⟩ => hg (by rw [hr] at hr'; cases hr'; exact hg'), ?_⟩
      have eq := outerBody_iter env (outer := outer) (st := st) hr hg
      have key := innerLoop_kept env outer (env.newton c0).2 (env.newton c0).1 0 (afterSetup env outer st)
      generalize innerLoop env outer (env.newton c0).2 0 (afterSetup env outer st) (env.newton c0).1 = R at *
      obtain ⟨st1, b⟩ := R
      cases b with
      | success => rw [eq] at h; cases h
      | hangs => rw [eq] at h; cases h
      | failed => rw [eq]; exact key (by simp)
      | raised e => rw [eq]; exact key (by simp)

/-- C99: so if a round leaves the coverages as they were and the guess made from them is the same again, the search
never ends. -/
theorem C99_stuck (hyb : Option (List K) → Nat → Py (List K)) (hh : env.hybrid = some hyb) (kept : Option (List K)) (g : List K)
    (hg : ∀ n, hyb kept n = .ok g) (hr : ∀ outer st, st.coverages = kept → (outerBody env outer g st).1.coverages = kept ∧
      ∃ o c, (outerBody env outer g st).2 = .again o c) :
    ∀ n outer st, st.coverages = kept → outerLoop env n outer g st = none := by
  intro n
  induction n with
  | zero => intro _ _ _; rfl
  | succ n ih =>
    intro outer st hst
    rw [outerLoop_succ]
    obtain ⟨h1, o, c, h2⟩ := hr outer st hst
    obtain ⟨-, hyb', k, e1, e2, e3, -⟩ := C99_round env outer g st o c h2
    rw [hh] at e1
    cases e1
    rw [h1] at e3
    rw [← e3, hg] at e2
    cases e2
    rw [h2]
    dsimp only
    apply ih
    unfold finalizeAll
    rw [h2]
    exact h1

end

/-! ### The integration -/

section
variable {K σ : Type} [Field K] [LinearOrder K] [IsStrictOrderedRing K]

/-- An integrator that can be set to coverages and a time and arrives at the times it is sent to. -/
structure Arrives (I : Integrator K σ) (start : List K → K → σ) : Prop where
  time : ∀ c t, I.time (start c t) = t
  cvgs : ∀ c t, I.cvgs (start c t) = c
  arrives : ∀ s t s', I.integrate s t = .ok s' → I.time s' = t

/-- The states of an integration in steps of `step`. -/
inductive Steps (I : Integrator K σ) (step : K) : σ → Nat → σ → Prop
  | zero {s} : Steps I step s 0 s
  | next {s s' s'' n} : I.integrate s (I.time s + step) = .ok s' → Steps I step s' n s'' → Steps I step s (n + 1) s''

theorem Steps.time {I : Integrator K σ} {start : List K → K → σ} (hI : Arrives I start) {step : K} {s s' : σ} {n : Nat}
    (h : Steps I step s n s') : I.time s' = I.time s + n * step := by
  induction h with
  | zero => simp
  | @next s s1 s2 n h1 _ ih =>
    rw [ih, hI.arrives _ _ _ h1]; push_cast; ring

theorem steps_of_path {I : Integrator K σ} {tEnd step : K} {s : σ} {path : List σ} (h : OdePath I tEnd step s path) :
    Steps I step s path.length (path.getLastD s) := by
  induction h with
  | stop _ => exact .zero
  | @next s s' l _ h2 _ ih =>
    rw [List.getLastD_cons]
    exact .next h2 ih

/-- An integration over `N` steps takes exactly `N` steps. -/
theorem path_length {I : Integrator K σ} {start : List K → K → σ} (hI : Arrives I start) {step : K} (hstep : 0 < step) {N : Nat}
    {s : σ} {path : List σ} (h : OdePath I (I.time s + N * step) step s path) : path.length = N := by
  have key : ∀ (tEnd : K) (s : σ) (path : List σ), OdePath I tEnd step s path → ∀ N : Nat, tEnd = I.time s + N * step → path.length = N := by
    intro tEnd s path h
    induction h with
    | @stop s h1 =>
      intro N hN
      rw [hN] at h1
      by_contra hne
      have : 0 < N := Nat.pos_of_ne_zero fun e => hne (by rw [e]; rfl)
      apply h1
      have : (0 : K) < N * step := mul_pos (by exact_mod_cast this) hstep
      linarith
    | @next s s' l h1 h2 _ ih =>
      intro N hN
      cases N with
      | zero => rw [hN] at h1; simp at h1
      | succ N =>
        rw [List.length_cons, ih N ?_]
        rw [hN, hI.arrives _ _ _ h2]; push_cast; ring
  exact key _ _ _ h N rfl

/-- What `solve_ode` starts with. -/
inductive StartsWith (nads : Nat) (boltz : Py (List K)) : Option (List K) → List K → Prop
  | given {c} : c ≠ [] → StartsWith nads boltz (some c) c
  | boltzmann {given c} : given = none ∨ given = some [] → boltz = .ok c → StartsWith nads boltz given c
  | empty {given} : given = none ∨ given = some [] → boltz = .error .IOError → StartsWith nads boltz given (List.replicate nads 0)

theorem odeInitial_ok {nads : Nat} {boltz : Py (List K)} {given : Option (List K)} {c : List K}
    (h : odeInitial nads boltz given = .ok c) : StartsWith nads boltz given c := by
  unfold odeInitial at h
  rcases given with _ | _ | ⟨a, l⟩
  · dsimp only at h
    rcases boltz with e | c'
    · dsimp only at h
      split at h
      · rename_i he; cases h; exact .empty (.inl rfl) (by rw [he])
      · cases h
    · cases h; exact .boltzmann (.inl rfl) rfl
  · dsimp only at h
    rcases boltz with e | c'
    · dsimp only at h
      split at h
      · rename_i he; cases h; exact .empty (.inr rfl) (by rw [he])
      · cases h
    · cases h; exact .boltzmann (.inr rfl) rfl
  · cases h; exact .given (by simp)

/-- What comes out of an integration over `N` steps from time zero. -/
theorem odeEnd_steps {I : Integrator K σ} {start : List K → K → σ} (hI : Arrives I start) {nads interval : Nat} {boltz : Py (List K)}
    {tEnd step : K} {fuel : Nat} {given : Option (List K)} {r : Py (K × List K)} (hstep : 0 < step) (N : Nat) (hN : tEnd = N * step)
    (h : odeEnd I start nads interval boltz tEnd step fuel given = some r) {t : K} {g : List K} (hr : r = .ok (t, g)) :
    ∃ c s, StartsWith nads boltz given c ∧ Steps I step (start c 0) N s ∧ t = tEnd ∧ g = I.cvgs s := by
  subst hr
  unfold odeEnd at h
  cases hc : odeInitial nads boltz given with
  | error e => rw [hc] at h; cases h
  | ok c =>
    rw [hc] at h
    dsimp only at h
    cases hs : solveOde I tEnd step interval false fuel (start c 0) with
    | none => rw [hs] at h; cases h
    | some p =>
      obtain ⟨r, f⟩ := p
      rw [hs] at h
      have hr : r = .ok (t, g) := Option.some.inj h
      rw [hr] at hs
      obtain ⟨path, hp, h1, h2, -⟩ := C64_trajectory hs
      have hlen : path.length = N := by
        refine path_length hI hstep (s := start c 0) ?_
        rw [hI.time, zero_add, ← hN]
        exact hp
      have hst := steps_of_path hp
      rw [hlen] at hst
      refine ⟨c, _, odeInitial_ok hc, hst, ?_, h2⟩
      rw [h1, hst.time hI, hI.time, zero_add, hN]

/-- The hybrid method of a model that registers no other. -/
def DefaultHybrid (I : Integrator K σ) (start : List K → K → σ) (nads interval : Nat) (boltz : Py (List K))
    (h : Option (List K) → Nat → Py (List K)) : Prop :=
  ∀ kept n, ∃ fuel, odeIntegration I start nads interval boltz fuel kept n = some (h kept n)

theorem odeLoop_mono {I : Integrator K σ} {tEnd step : K} {interval : Nat} {output : Bool} : ∀ (f g : Nat) (s : σ) (v : OdeVars K) (r r' : Py Unit × σ × OdeVars K),
    odeLoop I tEnd step interval output f s v = some r → odeLoop I tEnd step interval output g s v = some r' → r = r'
  | 0, _, _, _, _, _, h, _ => by cases h
  | _ + 1, 0, _, _, _, _, _, h => by cases h
  | f + 1, g + 1, s, v, r, r', h, h' => by
    unfold odeLoop at h h'
    split at h
    · rename_i ht
      rw [if_pos ht] at h'
      cases hturn : odeTurn I step interval output s v with
      | error e =>
        rw [hturn] at h h'
        exact Option.some.inj (h.symm.trans h')
      | ok p =>
        obtain ⟨s1, v1⟩ := p
        rw [hturn] at h h'
        exact odeLoop_mono f g s1 v1 r r' h h'
    · rename_i ht
      rw [if_neg ht] at h'
      exact Option.some.inj (h.symm.trans h')

theorem odeEnd_mono {I : Integrator K σ} {start : List K → K → σ} {nads interval : Nat} {boltz : Py (List K)} {tEnd step : K} {f g : Nat}
    {given : Option (List K)} {r r' : Py (K × List K)} (h : odeEnd I start nads interval boltz tEnd step f given = some r)
    (h' : odeEnd I start nads interval boltz tEnd step g given = some r') : r = r' := by
  unfold odeEnd at h h'
  cases hc : odeInitial nads boltz given with
  | error e => rw [hc] at h h'; exact Option.some.inj (h.symm.trans h')
  | ok c =>
    rw [hc] at h h'
    dsimp only at h h'
    unfold solveOde at h h'
    cases h1 : odeLoop I tEnd step interval false f (start c 0) ⟨odeHeader, [], [], 0, 0⟩ with
    | none => rw [h1] at h; cases h
    | some p =>
      cases h2 : odeLoop I tEnd step interval false g (start c 0) ⟨odeHeader, [], [], 0, 0⟩ with
      | none => rw [h2] at h'; cases h'
      | some q =>
        have := odeLoop_mono _ _ _ _ _ _ h1 h2
        subst this
        rw [h1] at h
        rw [h2] at h'
        exact Option.some.inj (h.symm.trans h')

/-- An integrator that arrives ends the loop. -/
theorem odeLoop_ends {I : Integrator K σ} {start : List K → K → σ} (hI : Arrives I start) {tEnd step : K} {interval : Nat} {output : Bool} :
    ∀ (n : Nat) (s : σ) (v : OdeVars K), tEnd ≤ I.time s + n * step → ∃ fuel r, odeLoop I tEnd step interval output fuel s v = some r
  | 0, s, v, h => by
    refine ⟨1, (.ok (), s, v), ?_⟩
    unfold odeLoop
    rw [if_neg]
    push_cast at h
    linarith
  | n + 1, s, v, h => by
    by_cases ht : I.time s < tEnd
    · cases hturn : odeTurn I step interval output s v with
      | error e =>
        refine ⟨1, (.error e, s, v), ?_⟩
        unfold odeLoop
        rw [if_pos ht, hturn]
      | ok p =>
        obtain ⟨s1, v1⟩ := p
        obtain ⟨hi, hs⟩ := odeTurn_inv hturn
        obtain ⟨fuel, r, hr⟩ := odeLoop_ends hI (tEnd := tEnd) (step := step) (interval := interval) (output := output) n s1 v1 (by rw [hI.arrives _ _ _ hs]; push_cast at h; linarith)
        refine ⟨fuel + 1, r, ?_⟩
        unfold odeLoop
        rw [if_pos ht, hturn]
        exact hr
    · refine ⟨1, (.ok (), s, v), ?_⟩
      unfold odeLoop
      rw [if_neg ht]

theorem odeEnd_ends {I : Integrator K σ} {start : List K → K → σ} (hI : Arrives I start) (nads interval : Nat) (boltz : Py (List K))
    {tEnd step : K} (N : Nat) (hN : tEnd ≤ N * step) (given : Option (List K)) :
    ∃ fuel r, odeEnd I start nads interval boltz tEnd step fuel given = some r := by
  unfold odeEnd
  cases odeInitial nads boltz given with
  | error e => exact ⟨0, _, rfl⟩
  | ok c =>
    obtain ⟨fuel, r, hr⟩ := odeLoop_ends hI (tEnd := tEnd) (step := step) (interval := interval) (output := false) N (start c 0)
      ⟨odeHeader, [], [], 0, 0⟩ (by rw [hI.time, zero_add]; exact hN)
    refine ⟨fuel, r.1.map fun _ => (I.time r.2.1, I.cvgs r.2.1), ?_⟩
    dsimp only
    unfold solveOde
    rw [hr]
    rfl

/-- With such an integrator the method always ends, with the same result whatever the number of the guess. -/
theorem defaultHybrid_exists {I : Integrator K σ} {start : List K → K → σ} (hI : Arrives I start) (nads interval : Nat) (boltz : Py (List K)) :
    ∃ h, DefaultHybrid I start nads interval boltz h := by
  have : ∀ kept : Option (List K), ∃ r, ∃ fuel, odeIntegration I start nads interval boltz fuel kept 0 = some r := by
    intro kept
    obtain ⟨fuel, r, hr⟩ := odeEnd_ends hI nads interval boltz (tEnd := 10) (step := 1 / 100) 1000 (by norm_num) (some (solverCoverages nads kept))
    exact ⟨_, fuel, by unfold odeIntegration; rw [hr]; rfl⟩
  choose f hf using this
  exact ⟨fun kept _ => f kept, fun kept _ => hf kept⟩

end

/-! ### Exact integration -/

section
variable {σ : Type}

/-- An integrator that solves the coverage equations exactly. -/
structure Exact (o : MFOwner ℝ) (k : List ℝ × List ℝ) (I : Integrator ℝ σ) (start : List ℝ → ℝ → σ) : Prop where
  arr : Arrives I start
  solves : ∀ s t s', I.integrate s t = .ok s' → I.time s ≤ t → ∃ v, Follows o k (t - I.time s) v ∧
    o.net.ads.map (v 0) = I.cvgs s ∧ I.cvgs s' = o.net.ads.map (v (t - I.time s))

theorem map_eq_iff {l : List Str} {v w : Str → ℝ} : l.map v = l.map w ↔ ∀ a ∈ l, v a = w a := List.map_inj_left

theorem Follows.shift {o : MFOwner ℝ} {k : List ℝ × List ℝ} {v : ℝ → Str → ℝ} (h : ∀ T, Follows o k T v) {a : ℝ} (ha : 0 ≤ a) (T : ℝ) :
    Follows o k T (fun t => v (a + t)) := by
  constructor
  · intro x hx
    refine ((h (a + T)).cont x hx).comp (f := fun t => a + t) (by fun_prop) ?_
    intro t ht
    exact ⟨by linarith [ht.1], by linarith [ht.2]⟩
  · intro t ht
    obtain ⟨ds, h1, h2⟩ := (h (a + T)).deriv (a + t) ⟨by linarith [ht.1], by linarith [ht.2]⟩
    refine ⟨ds, h1, fun p hp => ?_⟩
    exact (h2 p hp).comp_const_add a t

theorem Follows.mono {o : MFOwner ℝ} {k : List ℝ × List ℝ} {v : ℝ → Str → ℝ} {T T' : ℝ} (h : Follows o k T v) (hT : T' ≤ T) : Follows o k T' v :=
  ⟨fun a ha => (h.cont a ha).mono (Icc_subset_Icc_right hT), fun t ht => h.deriv t ⟨ht.1, ht.2.trans_le hT⟩⟩

theorem steps_solution {o : MFOwner ℝ} {total P C : Str → ℝ} {kf kr : List ℝ} {κf κr : Str → ℝ} (h : FlowOk o total P C kf kr κf κr)
    {I : Integrator ℝ σ} {start : List ℝ → ℝ → σ} (hI : Exact o (kf, kr) I start) {step : ℝ} (hstep : 0 ≤ step)
    {w : ℝ → Str → ℝ} (hw : ∀ T, Follows o (kf, kr) T w) {s s' : σ} {n : Nat} (hs : Steps I step s n s') :
    ∀ τ : ℝ, 0 ≤ τ → I.cvgs s = o.net.ads.map (w τ) → I.cvgs s' = o.net.ads.map (w (τ + n * step)) := by
  induction hs with
  | zero => intro τ _ e; simpa using e
  | @next s s1 s2 n h1 _ ih =>
    intro τ hτ e
    obtain ⟨v, v1, v2, v3⟩ := hI.solves _ _ _ h1 (by linarith)
    rw [add_sub_cancel_left] at v1 v3
    have hag := (C93_unique_partial o total P C kf kr κf κr h step v (fun t => w (τ + t)) v1 (Follows.shift hw hτ step)).1 (by
      rw [e, map_eq_iff] at v2
      simpa using v2)
    have e1 : I.cvgs s1 = o.net.ads.map (w (τ + step)) := by
      rw [v3, map_eq_iff]
      exact fun a ha => hag step ⟨hstep, le_refl _⟩ a ha
    rw [ih (τ + step) (by linarith) e1]
    congr 2
    push_cast; ring

/-- Rate constants and amounts of gases and liquids that are not negative, and totals of at most one. -/
structure Conditions (o : MFOwner ℝ) (total P C : Str → ℝ) (kf kr : List ℝ) : Prop where
  kf : ∀ k ∈ kf, 0 ≤ k
  kr : ∀ k ∈ kr, 0 ≤ k
  gas : ∀ g ∈ o.net.gas, 0 ≤ P g
  liq : ∀ g ∈ o.net.liq, 0 ≤ C g
  total : ∀ s ∈ o.net.sites, 0 ≤ total s ∧ total s ≤ 1

theorem state_of_physical {o : MFOwner ℝ} {total P C : Str → ℝ} (h : Ready o total P C) {kf kr : List ℝ} (hc : Conditions o total P C kf kr)
    {c : List ℝ} (hp : Physical o.net total c) : ∃ v, c = o.net.ads.map v ∧ PhysicalState o total P C v kf kr := by
  obtain ⟨v, rfl⟩ := tuple_as_function (ads_nodup h.parse) hp.length
  refine ⟨v, rfl, hc.kf, hc.kr, hc.gas, hc.liq, ?_⟩
  intro x hx
  unfold coverage
  split
  · rename_i ha
    exact (hp.unit _ (List.mem_map_of_mem ha)).1
  · rename_i ha
    have hs : x ∈ o.net.sites := by
      unfold Network.siteCols at hx
      exact (List.mem_append.mp hx).resolve_right ha
    have := hp.sites x hs
    rw [siteSum_map] at this
    linarith

theorem physical_of_state {o : MFOwner ℝ} {total P C : Str → ℝ} (h : Ready o total P C) {kf kr : List ℝ} (hc : Conditions o total P C kf kr)
    {v : Str → ℝ} (hp : PhysicalState o total P C v kf kr)
    (hb : ∀ a ∈ o.net.ads, ∀ s ∈ o.net.sites, OnSite a s → 0 ≤ v a ∧ v a ≤ total s) : Physical o.net total (o.net.ads.map v) := by
  refine ⟨by simp, ?_, ?_⟩
  · intro c hcm
    obtain ⟨a, ha, rfl⟩ := List.mem_map.mp hcm
    obtain ⟨s, hs, hon⟩ := ads_onSite h.parse ha
    have := hb a ha s hs hon
    exact ⟨this.1, this.2.trans (hc.total s hs).2⟩
  · intro s hs
    have h1 := hp.theta s (by unfold Network.siteCols; exact List.mem_append_left _ hs)
    unfold coverage at h1
    rw [if_neg (sites_disjoint h.parse s hs)] at h1
    rw [siteSum_map]
    linarith

theorem coverage_congr {o : MFOwner ℝ} {total v w : Str → ℝ} (h : ∀ a ∈ o.net.ads, v a = w a) {x : Str} :
    coverage o.net total v x = coverage o.net total w x := by
  unfold coverage
  split
  · exact h _ ‹_›
  · congr 2
    apply List.map_congr_left
    intro b hb
    exact h b (List.mem_filter.mp hb).1

theorem zeros_physical {o : MFOwner ℝ} {total P C : Str → ℝ} {kf kr : List ℝ} (hc : Conditions o total P C kf kr) :
    Physical o.net total (List.replicate o.net.ads.length 0) := by
  have e : List.replicate o.net.ads.length (0 : ℝ) = o.net.ads.map fun _ => (0 : ℝ) := by simp
  rw [e]
  refine ⟨by simp, ?_, ?_⟩
  · intro c hcm
    obtain ⟨a, ha, rfl⟩ := List.mem_map.mp hcm
    norm_num
  · intro s hs
    rw [siteSum_map]
    simpa using (hc.total s hs).1

/-- The coverages kept, or those of the empty surface. -/
def keptOrEmpty (n : Nat) : Option (List ℝ) → List ℝ
  | some c => c
  | none => List.replicate n 0

/-- C99: the new guess of the default hybrid method is the state of the surface ten seconds after the coverages kept by the
solver (the empty surface if there are none), with the model's own energies; if they are physical, it is physical.
Partial: for networks where the coverage equations are right (C26, C86), and without rounding. -/
theorem C99_guess_partial (o : MFOwner ℝ) (total P C : Str → ℝ) (kf kr : List ℝ) (κf κr : Str → ℝ) (h : FlowOk o total P C kf kr κf κr)
    (hc : Conditions o total P C kf kr) (hne : o.net.ads ≠ []) (I : Integrator ℝ σ) (start : List ℝ → ℝ → σ) (hI : Exact o (kf, kr) I start)
    (interval : Nat) (boltz : Py (List ℝ)) (hyb : Option (List ℝ) → Nat → Py (List ℝ))
    (hd : DefaultHybrid I start o.net.ads.length interval boltz hyb) (kept : Option (List ℝ)) (n : Nat) (g : List ℝ)
    (hg : hyb kept n = .ok g) (hp : ∀ c, kept = some c → Physical o.net total c) :
    ∃ w : ℝ → Str → ℝ, (∀ T, Follows o (kf, kr) T w) ∧
      o.net.ads.map (w 0) = (keptOrEmpty o.net.ads.length kept) ∧
      g = o.net.ads.map (w 10) ∧ Physical o.net total g := by
  obtain ⟨fuel, hf⟩ := hd kept n
  unfold odeIntegration at hf
  cases he : odeEnd I start o.net.ads.length interval boltz 10 (1 / 100) fuel (some (solverCoverages o.net.ads.length kept)) with
  | none => rw [he] at hf; cases hf
  | some r =>
    rw [he] at hf
    have hr : r.map (·.2) = hyb kept n := Option.some.inj hf
    rw [hg] at hr
    cases r with
    | error e => cases hr
    | ok p =>
      obtain ⟨t, g'⟩ := p
      have hg' : g' = g := Except.ok.inj hr
      subst hg'
      obtain ⟨c, s, h1, h2, -, h4⟩ := odeEnd_steps hI.arr (by norm_num) 1000 (by norm_num) he rfl
      have hps : Physical o.net total (solverCoverages o.net.ads.length kept) := by
        cases kept with
        | none => exact zeros_physical hc
        | some c => exact hp c rfl
      have hcs : c = solverCoverages o.net.ads.length kept := by
        have hlen := hps.length
        generalize solverCoverages o.net.ads.length kept = d at *
        cases h1 with
        | given _ => rfl
        | boltzmann hgv _ =>
          rcases hgv with e | e
          · cases e
          · cases Option.some.inj e
            exact absurd (List.length_eq_zero_iff.mp hlen.symm) hne
        | empty hgv _ =>
          rcases hgv with e | e
          · cases e
          · cases Option.some.inj e
            exact absurd (List.length_eq_zero_iff.mp hlen.symm) hne
      rw [← hcs] at hps
      obtain ⟨v0, hv0, hst⟩ := state_of_physical h.ready hc hps
      obtain ⟨w, hw0, hw⟩ := C93_exists_partial o total P C kf kr κf κr h v0 hst
      have hw0' : o.net.ads.map (w 0) = c := by rw [hv0, map_eq_iff]; exact hw0
      have hg10 : g' = o.net.ads.map (w 10) := by
        rw [h4, steps_solution h hI (by norm_num) hw h2 0 (le_refl _) (by rw [hI.arr.cvgs, hw0'])]
        norm_num
      have hst' : PhysicalState o total P C (w 0) kf kr := by
        refine ⟨hst.kf, hst.kr, hst.gas, hst.liq, fun x hx => ?_⟩
        have := hst.theta x hx
        rw [coverage_congr hw0]; exact this
      obtain ⟨p1, p2⟩ := C93_physical_partial o total P C kf kr κf κr h 10 w (hw 10) hst' 10 ⟨by norm_num, le_refl _⟩
      refine ⟨w, hw, ?_, hg10, ?_⟩
      · rw [hw0', hcs]; cases kept <;> rfl
      · rw [hg10]; exact physical_of_state h.ready hc p1 p2

/-- The integrator does not fail at physical coverages. -/
def Integrates (o : MFOwner ℝ) (total : Str → ℝ) (I : Integrator ℝ σ) : Prop :=
  ∀ s t, Physical o.net total (I.cvgs s) → I.time s ≤ t → ∃ s', I.integrate s t = .ok s'

theorem path_exists {o : MFOwner ℝ} {total P C : Str → ℝ} {kf kr : List ℝ} {κf κr : Str → ℝ} (h : FlowOk o total P C kf kr κf κr)
    {I : Integrator ℝ σ} {start : List ℝ → ℝ → σ} (hI : Exact o (kf, kr) I start) (hT : Integrates o total I) {step : ℝ} (hstep : 0 < step)
    {w : ℝ → Str → ℝ} (hw : ∀ T, Follows o (kf, kr) T w) (hph : ∀ t, 0 ≤ t → Physical o.net total (o.net.ads.map (w t))) :
    ∀ (N : Nat) (s : σ) (τ : ℝ), 0 ≤ τ → I.cvgs s = o.net.ads.map (w τ) → ∃ path, OdePath I (I.time s + N * step) step s path
  | 0, s, τ, _, _ => ⟨[], .stop (by simp)⟩
  | N + 1, s, τ, hτ, e => by
    obtain ⟨s1, h1⟩ := hT s (I.time s + step) (by rw [e]; exact hph τ hτ) (by linarith)
    have e1 := steps_solution h hI hstep.le hw (.next h1 .zero) τ hτ e
    obtain ⟨path, hp⟩ := path_exists h hI hT hstep hw hph N s1 (τ + (1 : Nat) * step) (by push_cast; linarith) e1
    refine ⟨s1 :: path, .next ?_ h1 ?_⟩
    · have : (0 : ℝ) < ((N + 1 : Nat) : ℝ) * step := by positivity
      linarith
    · rw [hI.arr.arrives _ _ _ h1] at hp
      convert hp using 1
      push_cast; ring

/-- C99: from physical coverages the default method always gives a guess, if the integrator does not fail and the output
interval is not zero. -/
theorem C99_defined_partial (o : MFOwner ℝ) (total P C : Str → ℝ) (kf kr : List ℝ) (κf κr : Str → ℝ) (h : FlowOk o total P C kf kr κf κr)
    (hc : Conditions o total P C kf kr) (hne : o.net.ads ≠ []) (I : Integrator ℝ σ) (start : List ℝ → ℝ → σ) (hI : Exact o (kf, kr) I start)
    (hT : Integrates o total I) (interval : Nat) (hi : interval ≠ 0) (boltz : Py (List ℝ)) (hyb : Option (List ℝ) → Nat → Py (List ℝ))
    (hd : DefaultHybrid I start o.net.ads.length interval boltz hyb) (kept : Option (List ℝ)) (n : Nat)
    (hp : ∀ c, kept = some c → Physical o.net total c) : ∃ g, hyb kept n = .ok g := by
  have hps : Physical o.net total (solverCoverages o.net.ads.length kept) := by
    cases kept with
    | none => exact zeros_physical hc
    | some c => exact hp c rfl
  obtain ⟨v0, hv0, hst⟩ := state_of_physical h.ready hc hps
  obtain ⟨w, hw0, hw⟩ := C93_exists_partial o total P C kf kr κf κr h v0 hst
  have hst' : PhysicalState o total P C (w 0) kf kr := by
    refine ⟨hst.kf, hst.kr, hst.gas, hst.liq, fun x hx => ?_⟩
    rw [coverage_congr hw0]
    exact hst.theta x hx
  have hph : ∀ t, 0 ≤ t → Physical o.net total (o.net.ads.map (w t)) := by
    intro t ht
    obtain ⟨p1, p2⟩ := C93_physical_partial o total P C kf kr κf κr h t w (hw t) hst' t ⟨ht, le_refl _⟩
    exact physical_of_state h.ready hc p1 p2
  have e0 : I.cvgs (start (solverCoverages o.net.ads.length kept) 0) = o.net.ads.map (w 0) := by
    rw [hI.arr.cvgs, hv0, map_eq_iff]; exact fun a ha => (hw0 a ha).symm
  obtain ⟨path, hpath⟩ := path_exists h hI hT (step := 1 / 100) (by norm_num) hw hph 1000
    (start (solverCoverages o.net.ads.length kept) 0) 0 (le_refl _) e0
  rw [hI.arr.time, show (0 : ℝ) + (1000 : Nat) * (1 / 100) = 10 by norm_num] at hpath
  obtain ⟨fuel, file, hf⟩ := C64_returns (output := false) hi hpath
  have hin : odeInitial o.net.ads.length boltz (some (solverCoverages o.net.ads.length kept)) = .ok (solverCoverages o.net.ads.length kept) := by
    have hlen := hps.length
    generalize solverCoverages o.net.ads.length kept = d at *
    cases d with
    | nil => exact absurd (List.length_eq_zero_iff.mp hlen.symm) hne
    | cons a l => rfl
  have hend : odeEnd I start o.net.ads.length interval boltz 10 (1 / 100) fuel (some (solverCoverages o.net.ads.length kept)) =
      some (.ok (I.time (path.getLastD (start (solverCoverages o.net.ads.length kept) 0)),
        I.cvgs (path.getLastD (start (solverCoverages o.net.ads.length kept) 0)))) := by
    unfold odeEnd
    rw [hin]
    dsimp only
    rw [hf]
    rfl
  obtain ⟨fuel', hf'⟩ := hd kept n
  unfold odeIntegration at hf'
  cases he : odeEnd I start o.net.ads.length interval boltz 10 (1 / 100) fuel' (some (solverCoverages o.net.ads.length kept)) with
  | none => rw [he] at hf'; cases hf'
  | some r =>
    have := odeEnd_mono he hend
    subst this
    rw [he] at hf'
    exact ⟨_, (Option.some.inj hf').symm⟩

/-- Coverages that begin with `c` and follow the coverage equations. -/
def From (o : MFOwner ℝ) (k : List ℝ × List ℝ) (c : List ℝ) (w : ℝ → Str → ℝ) : Prop :=
  (∀ T, Follows o k T w) ∧ o.net.ads.map (w 0) = c

/-- Two lists of numbers that differ by less than `δ`. -/
def NearTo (δ : ℝ) (c d : List ℝ) : Prop := c.length = d.length ∧ ∀ (i : Nat) (a b : ℝ), c[i]? = some a → d[i]? = some b → |a - b| < δ

/-- C99: if the surface gets close enough to a regular steady state within ten seconds from the coverages kept, the search
finds it: at once if no guess is given, and with the next guess after a failed round. -/
theorem C99_found_partial (o : MFOwner ℝ) (total P C : Str → ℝ) (kf kr : List ℝ) (κf κr : Str → ℝ) (h : FlowOk o total P C kf kr κf κr)
    (hc : Conditions o total P C kf kr) (hne : o.net.ads ≠ [])
    (hsim : ∀ states ∈ o.net.rxns, ∀ fs, (states.head? = some fs ∨ states.getLast? = some fs) → SimpleState fs)
    (hkf : kf.length = o.rxns.length) (hkr : kr.length = o.rxns.length)
    (hself : ∀ a ∈ o.net.ads, ∀ b ∈ o.net.ads, ∀ s, OnSite b s → ∀ states ∈ o.net.rxns, NoSelfSite a b s states)
    (solve : List (List ℝ) → List ℝ → Py (List ℝ)) (hsolve : SolvesRight solve) (hreg : SolvesRegular solve)
    (I : Integrator ℝ σ) (start : List ℝ → ℝ → σ) (hI : Exact o (kf, kr) I start) (hT : Integrates o total I)
    (interval : Nat) (hi : interval ≠ 0) (boltz : Py (List ℝ)) (hyb : Option (List ℝ) → Nat → Py (List ℝ))
    (hd : DefaultHybrid I start o.net.ads.length interval boltz hyb)
    (xs : List ℝ) (hl : xs.length = o.net.ads.length) (hpos : ∀ v ∈ xs, 0 < v)
    (fx : List ℝ) (hroot : steadyStateFunction o (kf, kr) xs = .ok fx) (hzero : ∀ v ∈ fx, v = 0)
    (J : List (List ℝ)) (hJ : analyticalJacobian o (kf, kr) xs = .ok J)
    (hinj : ∀ d, d.length = xs.length → (∀ v ∈ matVec J d, v = 0) → ∀ v ∈ d, v = 0)
    (tol η : ℝ) (htol : 0 < tol) (hη : 0 < η) :
    ∃ δ > 0, ∃ N : ℕ, ∀ (kept : Option (List ℝ)), (∀ c, kept = some c → Physical o.net total c) →
      (∀ w, From o (kf, kr) (keptOrEmpty o.net.ads.length kept) w → NearTo δ (o.net.ads.map (w 10)) xs) →
      ∀ m n (maxIter : Int) plugins st fuel, 0 < m → N ≤ n → (N : Int) ≤ maxIter →
        (st.coverages = kept → ∃ st' x, getSteady (mdEnv o (kf, kr) (kf, kr) solve euclid m n tol maxIter (some hyb) plugins false)
          (constrainCoverages o) (fuel + 1) none st = some (st', .returned x) ∧ NearTo η x xs) ∧
        (∀ outer c0 ro g,
          (outerBody (mdEnv o (kf, kr) (kf, kr) solve euclid m n tol maxIter (some hyb) plugins false) outer c0 st).2 = .again ro g →
          (outerBody (mdEnv o (kf, kr) (kf, kr) solve euclid m n tol maxIter (some hyb) plugins false) outer c0 st).1.coverages = kept →
          ∃ st' x, outerLoop (mdEnv o (kf, kr) (kf, kr) solve euclid m n tol maxIter (some hyb) plugins false) (fuel + 2) outer c0 st
            = some (st', .returned x) ∧ NearTo η x xs) := by
  obtain ⟨δ, hδ, N, hN⟩ := search_finds o total P C h.ready h.clean hsim kf kr hkf hkr hself solve hsolve hreg hne xs hl hpos fx
    hroot hzero J hJ hinj tol η htol hη
  refine ⟨δ, hδ, N, fun kept hp hnear m n maxIter plugins st fuel hm hNn hNi => ?_⟩
  have guess : ∀ n, ∃ g, hyb kept n = .ok g ∧ Physical o.net total g ∧ NearTo δ g xs := by
    intro n
    obtain ⟨g, hg⟩ := C99_defined_partial o total P C kf kr κf κr h hc hne I start hI hT interval hi boltz hyb hd kept n hp
    obtain ⟨w, w1, w2, w3, w4⟩ := C99_guess_partial o total P C kf kr κf κr h hc hne I start hI interval boltz hyb hd kept n g hg hp
    exact ⟨g, hg, w4, by rw [w3]; exact hnear w ⟨w1, w2⟩⟩
  constructor
  · intro hst
    obtain ⟨g, g1, g2, g3⟩ := guess 0
    have e : getSteady (mdEnv o (kf, kr) (kf, kr) solve euclid m n tol maxIter (some hyb) plugins false) (constrainCoverages o) (fuel + 1) none st =
        getSteady (mdEnv o (kf, kr) (kf, kr) solve euclid m n tol maxIter (some hyb) plugins false) (constrainCoverages o) (fuel + 1) (some g) st := by
      unfold getSteady
      dsimp only [mdEnv]
      rw [hst, g1]
      rfl
    rw [e, getSteady_some _ (C24_physical_unchanged o total P C h.ready g g2)]
    obtain ⟨st', x, x1, x2, x3⟩ := hN g g2 g3.2 m n maxIter (some hyb) plugins { st with converged := false } fuel 1 hm hNn hNi
    exact ⟨st', x, x1, x2, x3⟩
  · intro outer c0 ro g hag hk
    obtain ⟨-, hyb', kept', e1, e2, e3, -⟩ := C99_round _ outer c0 st ro g hag
    have : hyb = hyb' := Option.some.inj e1
    subst this
    rw [hk] at e3
    obtain ⟨g', g1, g2, g3⟩ := guess outer
    rw [← e3, g1] at e2
    have : g' = g := Except.ok.inj e2
    subst this
    obtain ⟨st', x, x1, x2, x3⟩ := hN g' g2 g3.2 m n maxIter (some hyb) plugins
      (finalizeAll (mdEnv o (kf, kr) (kf, kr) solve euclid m n tol maxIter (some hyb) plugins false) outer
        (outerBody (mdEnv o (kf, kr) (kf, kr) solve euclid m n tol maxIter (some hyb) plugins false) outer c0 st)) fuel ro hm hNn hNi
    refine ⟨st', x, ?_, x2, x3⟩
    rw [outerLoop_succ, hag]
    exact x1

/-- C99: `modify_init_guess` gives the state of the surface after the drawn number of seconds, whatever the step, beginning
with the Boltzmann coverages, or the empty surface if no absolute energies have been read. -/
theorem C99_modify_partial (o : MFOwner ℝ) (total P C : Str → ℝ) (kf kr : List ℝ) (κf κr : Str → ℝ) (h : FlowOk o total P C kf kr κf κr)
    (I : Integrator ℝ σ) (start : List ℝ → ℝ → σ) (hI : Exact o (kf, kr) I start)
    (interval : Nat) (boltz : Py (List ℝ)) (fuel a b : Nat) (g : List ℝ)
    (hg : modifyInitGuess I start o.net.ads.length interval boltz fuel a b = some (.ok g)) :
    ∃ c, (boltz = .ok c ∨ boltz = .error .IOError ∧ c = List.replicate o.net.ads.length 0) ∧
      ∀ w, From o (kf, kr) c w → g = o.net.ads.map (w a) := by
  unfold modifyInitGuess at hg
  cases he : odeEnd I start o.net.ads.length interval boltz (a : ℝ) (1 / 10 ^ b) fuel none with
  | none => rw [he] at hg; cases hg
  | some r =>
    rw [he] at hg
    have hr : r.map (·.2) = .ok g := Option.some.inj hg
    cases r with
    | error e => cases hr
    | ok p =>
      obtain ⟨t, g'⟩ := p
      have hg' : g' = g := Except.ok.inj hr
      subst hg'
      have hN : ((a : ℕ) : ℝ) = ((a * 10 ^ b : ℕ) : ℝ) * (1 / 10 ^ b) := by
        push_cast
        rw [mul_assoc, mul_one_div_cancel (by positivity), mul_one]
      obtain ⟨c, s, h1, h2, -, h4⟩ := odeEnd_steps hI.arr (by positivity) _ hN he rfl
      refine ⟨c, ?_, ?_⟩
      · cases h1 with
        | boltzmann _ e => exact .inl e
        | empty _ e => exact .inr ⟨e, rfl⟩
      · rintro w ⟨w1, w2⟩
        rw [h4, steps_solution h hI (by positivity) w1 h2 0 (le_refl _) (by rw [hI.arr.cvgs, w2]), ← hN, zero_add]

end

/-- C99: with an output interval of zero the default method always fails. -/
theorem C99_interval {K σ : Type} [Field K] [LinearOrder K] [IsStrictOrderedRing K] (I : Integrator K σ) (start : List K → K → σ) (hI : Arrives I start) (nads : Nat) (hn : 0 < nads)
    (boltz : Py (List K)) (hyb : Option (List K) → Nat → Py (List K)) (hd : DefaultHybrid I start nads 0 boltz hyb) (kept : Option (List K))
    (hp : ∀ c, kept = some c → c.length = nads) (n : Nat) : hyb kept n = .error .ZeroDivisionError := by
  obtain ⟨fuel, hf⟩ := hd kept n
  unfold odeIntegration odeEnd at hf
  have hlen : (solverCoverages nads kept).length = nads := by
    cases kept with
    | none => simp [solverCoverages]
    | some c => exact hp c rfl
  generalize solverCoverages nads kept = d at hf hlen
  cases d with
  | nil => rw [List.length_nil] at hlen; omega
  | cons x l =>
    unfold odeInitial solveOde at hf
    dsimp only at hf
    cases fuel with
    | zero => cases hf
    | succ fuel =>
      unfold odeLoop odeTurn at hf
      rw [if_pos (by rw [hI.time]; norm_num), if_pos rfl] at hf
      exact (Option.some.inj hf).symm

/-- C99: a model with the default method never gets `None` from the search. -/
theorem C99_never_none {K : Type} [Field K] [LinearOrder K] (env : SolveEnv K) (hh : env.hybrid ≠ none)
    (constrain : List K → Py (List K)) (n : Nat) (c0 : Option (List K)) (st st' : SolveState K) (out : Outcome K)
    (h : getSteady env constrain n c0 st = some (st', out)) : out ≠ .none := by
  rintro rfl
  exact hh (C31_none env constrain n c0 st st' h).1

/-! ### Concrete cases -/

open Classical in
/-- An exact integrator of any model: it follows a solution if there is one. -/
noncomputable def exactIntegrator (o : MFOwner ℝ) (k : List ℝ × List ℝ) : Integrator ℝ (ℝ × List ℝ) where
  time s := s.1
  cvgs s := s.2
  integrate s t := if h : ∃ v, Follows o k (t - s.1) v ∧ o.net.ads.map (v 0) = s.2 then .ok (t, o.net.ads.map (h.choose (t - s.1)))
    else .error .ValueError

theorem exactIntegrator_exact (o : MFOwner ℝ) (k : List ℝ × List ℝ) : Exact o k (exactIntegrator o k) (fun c t => (t, c)) := by
  refine ⟨⟨fun _ _ => rfl, fun _ _ => rfl, ?_⟩, ?_⟩
  · intro s t s' h
    unfold exactIntegrator at h
    dsimp only at h
    split at h
    · cases h; rfl
    · cases h
  · intro s t s' h _
    unfold exactIntegrator at h
    dsimp only at h
    split at h
    · rename_i hv
      cases h
      exact ⟨hv.choose, hv.choose_spec.1, hv.choose_spec.2, rfl⟩
    · cases h

theorem exactIntegrator_integrates {o : MFOwner ℝ} {total P C : Str → ℝ} {kf kr : List ℝ} {κf κr : Str → ℝ}
    (h : FlowOk o total P C kf kr κf κr) (hc : Conditions o total P C kf kr) : Integrates o total (exactIntegrator o (kf, kr)) := by
  intro s t hp _
  obtain ⟨v0, hv0, hst⟩ := state_of_physical h.ready hc hp
  obtain ⟨w, hw0, hw⟩ := C93_exists_partial o total P C kf kr κf κr h v0 hst
  have hex : ∃ v, Follows o (kf, kr) (t - s.1) v ∧ o.net.ads.map (v 0) = s.2 :=
    ⟨w, hw _, by rw [show s.2 = o.net.ads.map v0 from hv0, map_eq_iff]; exact hw0⟩
  exact ⟨(t, o.net.ads.map (hex.choose (t - s.1))), by unfold exactIntegrator; dsimp only; rw [dif_pos hex]⟩

theorem exHalf_equation (a b t : ℝ) : steadyStateFunction exHalf ([a], [b]) [t] = .ok [a * (1 - t) - b * t] := by
  have h : evalPoly ⟨[a], [b], [(str! "CO_s", t), (str! "*_s", 1 - ([t] : List ℝ).sum)], [(str! "CO_g", 1)], []⟩
      [(true, exHalfGain), (false, exHalfLoss)] = .ok (a * (1 - t) - b * t) := by
    have : a * (1 - t) - b * t = ([((1 : ℕ) : ℝ) * a * ([(1:ℝ) ^ 1, (1 - ([t] : List ℝ).sum) ^ 1]).prod,
        -(((1 : ℕ) : ℝ) * b * ([t ^ 1]).prod)]).sum := by
      simp; ring
    rw [this]; rfl
  have e : steadyStateFunction exHalf ([a], [b]) [t]
      = [[(true, exHalfGain), (false, exHalfLoss)]].mapM (evalPoly ⟨[a], [b], [(str! "CO_s", t), (str! "*_s", 1 - ([t] : List ℝ).sum)], [(str! "CO_g", 1)], []⟩) := by rfl
  rw [e]
  exact mapM_cons_ok h rfl

theorem exHalf_ads : exHalf.net.ads = [str! "CO_s"] := by decide

/-- The solution from coverage `c`. -/
noncomputable def exHalfFlow (a b c t : ℝ) : Str → ℝ := fun _ => a / (a + b) + (c - a / (a + b)) * Real.exp (-(a + b) * t)

theorem exHalfFlow_from {a b : ℝ} (hab : 0 < a + b) (c : ℝ) : From exHalf ([a], [b]) [c] (exHalfFlow a b c) := by
  refine ⟨fun T => ⟨fun x _ => ?_, fun t _ => ⟨[a * (1 - exHalfFlow a b c t []) - b * exHalfFlow a b c t []], ?_, ?_⟩⟩, ?_⟩
  · unfold exHalfFlow
    fun_prop
  · rw [exHalf_ads]
    exact exHalf_equation a b _
  · rintro ⟨x, d⟩ hp
    rw [exHalf_ads] at hp
    have : (x, d) = (str! "CO_s", a * (1 - exHalfFlow a b c t []) - b * exHalfFlow a b c t []) := by simpa using hp
    cases this
    unfold exHalfFlow
    have h1 : HasDerivAt (fun τ : ℝ => -(a + b) * τ) (-(a + b)) t := by simpa using (hasDerivAt_id t).const_mul (-(a + b))
    have h2 := (h1.exp.const_mul (c - a / (a + b))).const_add (a / (a + b))
    have hA : (a + b) * (a / (a + b)) = a := by field_simp
    refine h2.congr_deriv ?_
    linear_combination hA
  · rw [exHalf_ads]
    simp [exHalfFlow]

theorem exHalf_ok (a b : ℝ) : FlowOk exHalf (fun _ => 1) (fun _ => 1) (fun _ => 0) [a] [b] (fun _ => a) (fun _ => b) := by
  refine ⟨exHalf_ready, exHalf_clean, ⟨?_⟩, ⟨?_⟩, ?_, ?_⟩
  · intro i h
    have : i = 0 := by have : i < 1 := h; omega
    subst this; rfl
  · intro i h
    have : i = 0 := by have : i < 1 := h; omega
    subst this; rfl
  · have h : ∀ a ∈ exHalf.net.ads, ∀ states ∈ exHalf.net.rxns, oneSidedB a states = true := by decide
    exact fun a ha st hst => oneSided_of (h a ha st hst)
  · intro x hx f hf
    rw [exHalf_ads, List.mem_singleton] at hx
    subst hx
    have : (match chemFormula (str! "CO_s") with | .ok f => f.nsite | .error _ => 0) = 1 := by decide
    rw [hf] at this
    exact this

theorem exHalf_conditions {a b : ℝ} (ha : 0 ≤ a) (hb : 0 ≤ b) : Conditions exHalf (fun _ => 1) (fun _ => 1) (fun _ => 0) [a] [b] :=
  ⟨by simpa using ha, by simpa using hb, by simp, by simp, by simp⟩

theorem exHalf_physical {t : ℝ} (h0 : 0 ≤ t) (h1 : t ≤ 1) : Physical exHalf.net (fun _ => (1 : ℝ)) [t] := by
  refine ⟨rfl, by simpa using ⟨h0, h1⟩, ?_⟩
  intro s hs
  have : exHalf.net.sites = [str! "*_s"] := by rfl
  rw [this, List.mem_singleton] at hs
  subst hs
  have : siteSum exHalf.net [t] (str! "*_s") = [t].sum := rfl
  rw [this]
  simpa using h1

/-- What the default method proposes for adsorption and desorption with constants `a` and `b` from coverage `c`. -/
theorem exHalf_guess {a b c : ℝ} (ha : 0 ≤ a) (hb : 0 ≤ b) (hab : 0 < a + b) (h0 : 0 ≤ c) (h1 : c ≤ 1) {σ : Type} (I : Integrator ℝ σ)
    (start : List ℝ → ℝ → σ) (hI : Exact exHalf ([a], [b]) I start) (interval : Nat) (boltz : Py (List ℝ))
    (hyb : Option (List ℝ) → Nat → Py (List ℝ)) (hd : DefaultHybrid I start 1 interval boltz hyb) (n : Nat) (g : List ℝ)
    (hg : hyb (some [c]) n = .ok g) : g = [a / (a + b) + (c - a / (a + b)) * Real.exp (-(a + b) * 10)] := by
  obtain ⟨w, w1, w2, w3, -⟩ := C99_guess_partial exHalf (fun _ => 1) (fun _ => 1) (fun _ => 0) [a] [b] _ _ (exHalf_ok a b)
    (exHalf_conditions ha hb) (by decide) I start hI interval boltz hyb hd (some [c]) n g hg (fun d hd => by
      cases hd; exact exHalf_physical h0 h1)
  have hf := exHalfFlow_from hab c
  have := (C93_unique_partial exHalf (fun _ => 1) (fun _ => 1) (fun _ => 0) [a] [b] _ _ (exHalf_ok a b) 10 w (exHalfFlow a b c) (w1 10) (hf.1 10)).1
    (map_eq_iff.mp (w2.trans hf.2.symm)) 10 ⟨by norm_num, le_refl _⟩
  rw [w3, map_eq_iff.mpr this, exHalf_ads]
  rfl

/-- The assumptions of `C99_guess_partial`, `C99_defined_partial` and `C99_found_partial` for this model, with half coverage
kept: the search without a guess finds it. -/
example : ∃ hyb, DefaultHybrid (exactIntegrator exHalf ([1], [1])) (fun c t => (t, c)) exHalf.net.ads.length 1 (.error .IOError) hyb ∧
    ∃ N : ℕ, ∀ plugins, ∃ st' x,
      getSteady (mdEnv exHalf ([1], [1]) ([1], [1]) exactSolve euclid 60 (N + 1) (1 / 10 ^ 8) (N + 1) (some hyb) plugins false)
        (constrainCoverages exHalf) 1 none ⟨some [1 / 2], none, false, [], []⟩ = some (st', .returned x) ∧ NearTo (1 / 1000) x [1 / 2] := by
  obtain ⟨hyb, hd⟩ := defaultHybrid_exists (exactIntegrator_exact exHalf ([1], [1])).arr exHalf.net.ads.length 1 (.error .IOError)
  refine ⟨hyb, hd, ?_⟩
  have hc := exHalf_conditions (a := 1) (b := 1) (by norm_num) (by norm_num)
  obtain ⟨δ, hδ, N, h⟩ := C99_found_partial exHalf (fun _ => 1) (fun _ => 1) (fun _ => 0) [1] [1] _ _ (exHalf_ok 1 1) hc (by decide) exHalf_simple
    rfl rfl exHalf_self exactSolve exactSolve_right exactSolve_regular _ _ (exactIntegrator_exact exHalf ([1], [1]))
    (exactIntegrator_integrates (exHalf_ok 1 1) hc) 1 (by norm_num) (.error .IOError) hyb hd [1 / 2] rfl (by simp) [0] exHalf_function (by simp)
    [[-2]] exHalf_jacobian
    (by
      intro d hd hv
      obtain ⟨d, rfl⟩ : ∃ e, d = [e] := List.length_eq_one_iff.mp hd
      simpa [matVec] using hv) (1 / 10 ^ 8) (1 / 1000) (by norm_num) (by norm_num)
  refine ⟨N, fun plugins => ?_⟩
  refine (h (some [1 / 2]) (fun c hcc => by cases hcc; exact exHalf_physical (by norm_num) (by norm_num)) ?_ 60 (N + 1) (N + 1) plugins
    ⟨some [1 / 2], none, false, [], []⟩ 0 (by norm_num) (by omega) (by omega)).1 rfl
  rintro w ⟨w1, w2⟩
  have hf := exHalfFlow_from (a := 1) (b := 1) (by norm_num) (1 / 2)
  have := (C93_unique_partial exHalf (fun _ => 1) (fun _ => 1) (fun _ => 0) [1] [1] _ _ (exHalf_ok 1 1) 10 w (exHalfFlow 1 1 (1 / 2)) (w1 10) (hf.1 10)).1
    (map_eq_iff.mp (w2.trans hf.2.symm)) 10 ⟨by norm_num, le_refl _⟩
  rw [map_eq_iff.mpr this, exHalf_ads]
  refine ⟨rfl, ?_⟩
  intro i a b ha hb
  cases i with
  | zero =>
    have e1 : exHalfFlow 1 1 (1 / 2) 10 (str! "CO_s") = a := Option.some.inj ha
    have e2 : (1 / 2 : ℝ) = b := Option.some.inj hb
    rw [← e1, ← e2]
    have : exHalfFlow 1 1 (1 / 2) 10 (str! "CO_s") = 1 / 2 := by unfold exHalfFlow; norm_num
    rw [this]; simpa using hδ
  | succ i => cases ha

/-- C99 (refuted) for searches with energies given: the hybrid method integrates with the model's own energies. Here the
model's own steady state is half coverage; if that is kept, the guess for a search with other constants is half
coverage again, where the residual is one, although ten seconds with those constants would reduce it to `exp (-40)`. -/
theorem C99_energies_refuted {σ : Type} (I I' : Integrator ℝ σ) (start : List ℝ → ℝ → σ) (hI : Exact exHalf ([1], [1]) I start)
    (hI' : Exact exHalf ([3], [1]) I' start) (interval : Nat) (boltz : Py (List ℝ)) (hyb hyb' : Option (List ℝ) → Nat → Py (List ℝ))
    (hd : DefaultHybrid I start 1 interval boltz hyb) (hd' : DefaultHybrid I' start 1 interval boltz hyb') (n : Nat) (g g' : List ℝ)
    (hg : hyb (some [1 / 2]) n = .ok g) (hg' : hyb' (some [1 / 2]) n = .ok g') :
    getResidual exHalf ([3], [1]) g = .ok 1 ∧ getResidual exHalf ([3], [1]) g' = .ok (Real.exp (-40)) := by
  have e := exHalf_guess (by norm_num) (by norm_num) (by norm_num) (by norm_num) (by norm_num) I start hI interval boltz hyb hd n g hg
  have e' := exHalf_guess (by norm_num) (by norm_num) (by norm_num) (by norm_num) (by norm_num) I' start hI' interval boltz hyb' hd' n g' hg'
  subst e
  subst e'
  have key : ∀ t r : ℝ, |3 * (1 - t) - 1 * t| = r → getResidual exHalf ([3], [1]) [t] = .ok r := by
    intro t r hr
    unfold getResidual
    rw [exHalf_equation, ← hr]
    rfl
  constructor
  · exact key _ _ (by norm_num)
  · apply key
    have : (3 : ℝ) * (1 - (3 / (3 + 1) + (1 / 2 - 3 / (3 + 1)) * Real.exp (-(3 + 1) * 10))) -
        1 * (3 / (3 + 1) + (1 / 2 - 3 / (3 + 1)) * Real.exp (-(3 + 1) * 10)) = Real.exp (-40) := by norm_num; ring
    rw [this]
    exact abs_of_pos (Real.exp_pos _)

example : ∃ hyb g, DefaultHybrid (exactIntegrator exHalf ([1], [1])) (fun c t => (t, c)) 1 1 (.error .IOError) hyb ∧ hyb (some [1 / 2]) 0 = .ok g := by
  obtain ⟨hyb, hd⟩ := defaultHybrid_exists (exactIntegrator_exact exHalf ([1], [1])).arr 1 1 (.error .IOError)
  have hc := exHalf_conditions (a := 1) (b := 1) (by norm_num) (by norm_num)
  obtain ⟨g, hg⟩ := C99_defined_partial exHalf (fun _ => 1) (fun _ => 1) (fun _ => 0) [1] [1] _ _ (exHalf_ok 1 1) hc (by decide) _ _
    (exactIntegrator_exact exHalf ([1], [1])) (exactIntegrator_integrates (exHalf_ok 1 1) hc) 1 (by norm_num) (.error .IOError) hyb hd
    (some [1 / 2]) 0 (fun c hcc => by cases hcc; exact exHalf_physical (by norm_num) (by norm_num))
  exact ⟨hyb, g, hd, hg⟩

/-- A solver for two equations and the sum of absolute values as norm. -/
def exSolve2 : List (List ℚ) → List ℚ → Py (List ℚ)
  | [[a, b], [c, d]], [e, f] =>
    if a * d - b * c = 0 then .error .ZeroDivisionError else .ok [(-e * d + f * b) / (a * d - b * c), (-f * a + e * c) / (a * d - b * c)]
  | _, _ => .error .ValueError

def exSum : List ℚ → ℚ := fun l => (l.map fun a => |a|).sum

/-- A hybrid method that gives back what is kept. -/
def exEcho : Option (List ℚ) → Nat → Py (List ℚ)
  | some c, _ => .ok c
  | none, _ => .error .ValueError

/-- C99 (refuted) for physical guesses: what is kept are iterates of the root finder, which may be negative, and the
integration begins there. Here oxidation of CO with one iteration allowed, from the physical guess 0 and 1/4. -/
theorem C99_negative_refuted : (getSteady (mdEnv exMF ([2, 4, 5], [0, 0, 0]) ([2, 4, 5], [0, 0, 0]) exSolve2 exSum 4 4 (1 / 1000) 1 (some exEcho) [] false)
      (constrainCoverages exMF) 1 (some [0, 1 / 4]) exFresh).isNone ∧
    (match outerBody (mdEnv exMF ([2, 4, 5], [0, 0, 0]) ([2, 4, 5], [0, 0, 0]) exSolve2 exSum 4 4 (1 / 1000) 1 (some exEcho) [] false) 1 [0, 1 / 4] exFresh with
      | (st, .again 2 g) => st.coverages = some [9 / 20, -1 / 80] ∧ g = [9 / 20, -1 / 80]
      | _ => False) := by
  constructor
  · decide +kernel
  · have h : (match outerBody (mdEnv exMF ([2, 4, 5], [0, 0, 0]) ([2, 4, 5], [0, 0, 0]) exSolve2 exSum 4 4 (1 / 1000) 1 (some exEcho) [] false) 1 [0, 1 / 4] exFresh with
      | (st, .again 2 g) => decide (st.coverages = some [9 / 20, -1 / 80] ∧ g = [9 / 20, -1 / 80])
      | _ => false) = true := by decide +kernel
    split at h
    · simpa using h
    · cases h

/-- The assumptions of `C99_stuck`: no iteration is allowed, and the coverages kept lead to the same guess again. -/
example : ∀ n outer st, st.coverages = some [1 / 4] →
    outerLoop (mdEnv exDissMF ([1], [4]) ([1], [4]) exSolve exAbs 4 4 (1 / 100) 0 (some fun _ _ => .ok [1 / 2]) [] false) n outer [1 / 2] st = none := by
  refine C99_stuck _ (fun _ _ => .ok [1 / 2]) rfl (some [1 / 4]) [1 / 2] (fun _ => rfl) ?_
  intro outer st hst
  have hr : getResidual exDissMF ([1], [4]) [1 / 2] = .ok (3 / 2) := by decide +kernel
  have hn : (mdNewton (ssProblem exDissMF ([1], [4]) exSolve exAbs) 1 (· / 2) 4 4 [1 / 2]).1.map (fun y => (y.x, y.norm)) =
      ([7 / 20], 27 / 200) :: [([547 / 1640], 2187 / 1344800), ([3587227 / 10761680], 14348907 / 57906878211200),
        ([154418349070987 / 463255047212960], 617673396283947 / 107302619384140899331795980800)] := by decide +kernel
  have hr1 : getResidual exDissMF ([1], [4]) [7 / 20] = .ok (27 / 200) := by decide +kernel
  rw [outerBody_iter (r := 3 / 2) _ hr (by norm_num [mdEnv])]
  dsimp only [mdEnv]
  rw [hn]
  unfold innerLoop
  dsimp only
  rw [hr1]
  dsimp only
  rw [if_neg (by simp), if_pos (by simp)]
  exact ⟨hst, _, _, rfl⟩

/-- A failed round of the same model: the iterate 7/20 is kept and given to the hybrid method. -/
example : (match outerBody (mdEnv exDissMF ([1], [4]) ([1], [4]) exSolve exAbs 4 4 (1 / 1000) 1 (some exEcho) [] false) 1 [1 / 2] exFresh with
      | (_, .again 2 g) => decide (g = [7 / 20])
      | _ => false) = true := by decide +kernel

/-- `modify_init_guess` with the exact integrator of growth at rate one: three seconds in steps of a tenth. -/
example : modifyInitGuess exIntegrator (fun c t => (t, c.headD 0)) 1 1 (.ok [1 / 2]) 40 3 1 = some (.ok [7 / 2]) := by decide +kernel

example : odeIntegration exIntegrator (fun c t => (t, c.headD 0)) 1 0 (.ok [1 / 2]) 40 none 0 = some (.error .ZeroDivisionError) := by decide +kernel

end Verif
