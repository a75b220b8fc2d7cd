import Verif.Model.SteadyLoop
import Verif.Props.Constrain
import Verif.Props.Newton
/- C31, C32, C34: the search for steady states, its plugins, and degrees of rate control. -/
namespace Verif

section
variable {K : Type} [Field K] [LinearOrder K] (env : SolveEnv K)

/-! ## The loop over the iterator -/

/-- The iteration goes on after item `j` (counted from zero): the residual exists, the limit is not
passed and the point is not within tolerance. -/
def GoesOn (j : Nat) (it : List K × K) : Prop :=
  ∃ r, env.resid it.1 = .ok r ∧ ((j + 1 : Nat) : Int) ≤ env.maxIter ∧ ¬ (it.2 < env.tol ∧ r < env.tol)

/-- The item is a root: within tolerance, the limit is not passed, and no coverage is negative. -/
def IsRoot (j : Nat) (it : List K × K) : Prop :=
  ∃ r, env.resid it.1 = .ok r ∧ ((j + 1 : Nat) : Int) ≤ env.maxIter ∧ it.2 < env.tol ∧ r < env.tol ∧ it.1 ≠ [] ∧ ∀ c ∈ it.1, 0 ≤ c

/-- The first `m` items go on and the one after them, if any, does not. -/
def StopsAfter (nt : Nat) (items : List (List K × K)) (m : Nat) : Prop :=
  (∀ j it, j < m → items[j]? = some it → GoesOn env (nt + j) it) ∧ m ≤ items.length ∧
  ∀ it, items[m]? = some it → ¬ GoesOn env (nt + m) it

theorem any_neg {x : List K} : x.any (fun c => decide (c < 0)) = true ↔ ¬ ∀ c ∈ x, 0 ≤ c := by
  rw [List.any_eq_true]
  push Not
  simp

theorem innerLoop_spec (outer : Nat) (fin : IterEnd) : ∀ (items : List (List K × K)) (nt : Nat) (st : SolveState K),
    ∃ m, StopsAfter env nt items m ∧
      (innerLoop env outer fin nt st items).1.calls = st.calls ++ (List.range m).flatMap (fun j => stepCalls env.plugins (nt + j + 1) outer) ∧
      (innerLoop env outer fin nt st items).1.archived = st.archived ∧
      ((innerLoop env outer fin nt st items).2 = .success ↔ ∃ it, items[m]? = some it ∧ IsRoot env (nt + m) it) ∧
      ((innerLoop env outer fin nt st items).2 = .success → ∃ it, items[m]? = some it ∧
        (innerLoop env outer fin nt st items).1.coverages = some it.1 ∧ (innerLoop env outer fin nt st items).1.error = some it.2 ∧
        (innerLoop env outer fin nt st items).1.converged = true) ∧
      ((innerLoop env outer fin nt st items).2 ≠ .success → (innerLoop env outer fin nt st items).1.converged = st.converged)
  | [], nt, st => by
    refine ⟨0, ⟨fun j it h => absurd h (Nat.not_lt_zero _), Nat.le_refl _, by simp⟩, ?_, rfl, ?_, ?_, fun _ => rfl⟩
    · show st.calls = st.calls ++ []
      rw [List.append_nil]
    · have : (innerLoop env outer fin nt st []).2 ≠ .success := by
        show (match fin with | .stopped => InnerEnd.failed | .raised e => .raised e | .running => .hangs) ≠ .success
        cases fin <;> simp
      simp [this]
    · intro h
      have : (innerLoop env outer fin nt st []).2 ≠ .success := by
        show (match fin with | .stopped => InnerEnd.failed | .raised e => .raised e | .running => .hangs) ≠ .success
        cases fin <;> simp
      exact absurd h this
  | (x, err) :: rest, nt, st => by
    -- items that end the loop
    have stop : ∀ (st' : SolveState K) (b : InnerEnd), innerLoop env outer fin nt st ((x, err) :: rest) = (st', b) →
        ¬ GoesOn env nt (x, err) → st'.calls = st.calls → st'.archived = st.archived → (b = .success ↔ IsRoot env nt (x, err)) →
        (b = .success → st'.coverages = some x ∧ st'.error = some err ∧ st'.converged = true) →
        (b ≠ .success → st'.converged = st.converged) → 
        ∃ m, StopsAfter env nt ((x, err) :: rest) m ∧
          (innerLoop env outer fin nt st ((x, err) :: rest)).1.calls = st.calls ++ (List.range m).flatMap (fun j => stepCalls env.plugins (nt + j + 1) outer) ∧
          (innerLoop env outer fin nt st ((x, err) :: rest)).1.archived = st.archived ∧
          ((innerLoop env outer fin nt st ((x, err) :: rest)).2 = .success ↔ ∃ it, ((x, err) :: rest)[m]? = some it ∧ IsRoot env (nt + m) it) ∧
          ((innerLoop env outer fin nt st ((x, err) :: rest)).2 = .success → ∃ it, ((x, err) :: rest)[m]? = some it ∧
            (innerLoop env outer fin nt st ((x, err) :: rest)).1.coverages = some it.1 ∧
            (innerLoop env outer fin nt st ((x, err) :: rest)).1.error = some it.2 ∧
            (innerLoop env outer fin nt st ((x, err) :: rest)).1.converged = true) ∧
          ((innerLoop env outer fin nt st ((x, err) :: rest)).2 ≠ .success →
            (innerLoop env outer fin nt st ((x, err) :: rest)).1.converged = st.converged) := by
      intro st' b hb h1 h2 h3 h4 h5 h6
      rw [hb]
      refine ⟨0, ⟨fun j it h => absurd h (Nat.not_lt_zero _), Nat.zero_le _, ?_⟩, ?_, h3, ?_, ?_, h6⟩
      · intro it hit
        have : (x, err) = it := by simpa using hit
        subst this
        exact h1
      · show st'.calls = st.calls ++ []
        rw [List.append_nil]; exact h2
      · rw [h4]
        exact ⟨fun h => ⟨_, rfl, h⟩, fun ⟨it, hit, h⟩ => by
          have : (x, err) = it := by simpa using hit
          subst this; exact h⟩
      · intro h
        exact ⟨(x, err), rfl, h5 h⟩
    -- items after which it goes on
    have go : ∀ (st' : SolveState K), innerLoop env outer fin nt st ((x, err) :: rest) = innerLoop env outer fin (nt + 1) st' rest →
        GoesOn env nt (x, err) → st'.calls = st.calls ++ stepCalls env.plugins (nt + 1) outer → st'.archived = st.archived →
        st'.converged = st.converged → 
        ∃ m, StopsAfter env nt ((x, err) :: rest) m ∧
          (innerLoop env outer fin nt st ((x, err) :: rest)).1.calls = st.calls ++ (List.range m).flatMap (fun j => stepCalls env.plugins (nt + j + 1) outer) ∧
          (innerLoop env outer fin nt st ((x, err) :: rest)).1.archived = st.archived ∧
          ((innerLoop env outer fin nt st ((x, err) :: rest)).2 = .success ↔ ∃ it, ((x, err) :: rest)[m]? = some it ∧ IsRoot env (nt + m) it) ∧
          ((innerLoop env outer fin nt st ((x, err) :: rest)).2 = .success → ∃ it, ((x, err) :: rest)[m]? = some it ∧
            (innerLoop env outer fin nt st ((x, err) :: rest)).1.coverages = some it.1 ∧
            (innerLoop env outer fin nt st ((x, err) :: rest)).1.error = some it.2 ∧
            (innerLoop env outer fin nt st ((x, err) :: rest)).1.converged = true) ∧
          ((innerLoop env outer fin nt st ((x, err) :: rest)).2 ≠ .success →
            (innerLoop env outer fin nt st ((x, err) :: rest)).1.converged = st.converged) := by
      intro st' hb h1 h2 h3 h4
      rw [hb]
      obtain ⟨m, ⟨a1, a2, a3⟩, b, c, d, e, f⟩ := innerLoop_spec outer fin rest (nt + 1) st'
      refine ⟨m + 1, ⟨?_, by simpa using a2, ?_⟩, ?_, by rw [c, h3], ?_, ?_, fun h => by rw [f h, h4]⟩
      · intro j it hj hit
        cases j with
        | zero =>
          have : (x, err) = it := by simpa using hit
          subst this
          exact h1
        | succ j =>
          rw [List.getElem?_cons_succ] at hit
          have := a1 j it (by omega) hit
          rw [show nt + (j + 1) = nt + 1 + j by omega]
          exact this
      · intro it hit
        rw [List.getElem?_cons_succ] at hit
        rw [show nt + (m + 1) = nt + 1 + m by omega]
        exact a3 it hit
      · rw [b, h2, List.append_assoc, List.range_succ_eq_map, List.flatMap_cons, List.flatMap_map]
        congr 2
        apply List.flatMap_congr
        intro j _
        show stepCalls env.plugins (nt + 1 + j + 1) outer = stepCalls env.plugins (nt + (j + 1) + 1) outer
        rw [show nt + 1 + j + 1 = nt + (j + 1) + 1 by omega]
      · rw [d]
        simp only [List.getElem?_cons_succ]
        rw [show nt + (m + 1) = nt + 1 + m by omega]
      · intro h
        obtain ⟨it, h1, h2⟩ := e h
        exact ⟨it, by rw [List.getElem?_cons_succ]; exact h1, h2⟩
    have eq : innerLoop env outer fin nt st ((x, err) :: rest) = (match env.resid x with
      | .error e => (st, .raised e)
      | .ok r =>
        if ¬ env.maxIter < ((nt + 1 : Nat) : Int) ∧ err < env.tol then
          if r < env.tol then
            if x = [] then (st, .raised .UnboundLocalError)
            else if x.any (fun c => decide (c < 0)) then (st, .failed)
            else ({ st with coverages := some x, error := some err, converged := true }, .success)
          else
            innerLoop env outer fin (nt + 1)
              { st with coverages := some x, error := some r, calls := st.calls ++ stepCalls env.plugins (nt + 1) outer } rest
        else if env.maxIter < ((nt + 1 : Nat) : Int) then (st, .failed)
        else
          innerLoop env outer fin (nt + 1)
            { st with coverages := some x, error := some err, calls := st.calls ++ stepCalls env.plugins (nt + 1) outer } rest) := rfl
    cases hr : env.resid x with
    | error e =>
      rw [hr] at eq
      refine stop _ _ eq ?_ rfl rfl ?_ (fun h => (nomatch h)) (fun _ => rfl)
      · rintro ⟨r, h, -⟩; rw [hr] at h; cases h
      · refine ⟨fun h => (nomatch h), ?_⟩
        rintro ⟨r, h, -⟩; rw [hr] at h; cases h
    | ok r =>
      rw [hr] at eq
      dsimp only at eq
      have root : IsRoot env nt (x, err) ↔ ((nt + 1 : Nat) : Int) ≤ env.maxIter ∧ err < env.tol ∧ r < env.tol ∧ x ≠ [] ∧ ∀ c ∈ x, 0 ≤ c := by
        constructor
        · rintro ⟨r', h, h'⟩
          rw [hr] at h; cases h
          exact h'
        · exact fun h => ⟨r, hr, h⟩
      have goes : GoesOn env nt (x, err) ↔ ((nt + 1 : Nat) : Int) ≤ env.maxIter ∧ ¬ (err < env.tol ∧ r < env.tol) := by
        constructor
        · rintro ⟨r', h, h'⟩
          rw [hr] at h; cases h
          exact h'
        · exact fun h => ⟨r, hr, h⟩
      by_cases hc : ¬ env.maxIter < ((nt + 1 : Nat) : Int) ∧ err < env.tol
      · rw [if_pos hc] at eq
        by_cases hrt : r < env.tol
        · rw [if_pos hrt] at eq
          have nogo : ¬ GoesOn env nt (x, err) := by rw [goes]; exact fun h => h.2 ⟨hc.2, hrt⟩
          by_cases hx : x = []
          · rw [if_pos hx] at eq
            refine stop _ _ eq nogo rfl rfl ⟨fun h => (nomatch h), fun h => ?_⟩ (fun h => (nomatch h)) (fun _ => rfl)
            exact absurd hx (root.mp h).2.2.2.1
          · rw [if_neg hx] at eq
            by_cases hn : x.any (fun c => decide (c < 0)) = true
            · rw [if_pos hn] at eq
              refine stop _ _ eq nogo rfl rfl ⟨fun h => (nomatch h), fun h => ?_⟩ (fun h => (nomatch h)) (fun _ => rfl)
              exact absurd (root.mp h).2.2.2.2 (any_neg.mp hn)
            · rw [if_neg hn] at eq
              refine stop _ _ eq nogo rfl rfl ⟨fun _ => root.mpr ⟨not_lt.mp hc.1, hc.2, hrt, hx, ?_⟩, fun _ => rfl⟩ (fun _ => ⟨rfl, rfl, rfl⟩) (fun h => absurd rfl h)
              by_contra h
              exact hn (any_neg.mpr h)
        · rw [if_neg hrt] at eq
          exact go _ eq (goes.mpr ⟨not_lt.mp hc.1, fun h => hrt h.2⟩) rfl rfl rfl
      · rw [if_neg hc] at eq
        by_cases hm : env.maxIter < ((nt + 1 : Nat) : Int)
        · rw [if_pos hm] at eq
          refine stop _ _ eq ?_ rfl rfl ⟨fun h => (nomatch h), fun h => ?_⟩ (fun h => (nomatch h)) (fun _ => rfl)
          · rw [goes]; exact fun h => absurd hm (not_lt.mpr h.1)
          · exact absurd hm (not_lt.mpr (root.mp h).1)
        · rw [if_neg hm] at eq
          exact go _ eq (goes.mpr ⟨not_lt.mp hm, fun h => hc ⟨hm, h.1⟩⟩) rfl rfl rfl

/-! ## C31 The search -/

/-- The guess is accepted without iteration. -/
def GoodGuess (c0 : List K) : Prop := ∃ r, env.resid c0 = .ok r ∧ r ≤ env.tol ∧ env.singlePt = false

/-- What a body leaves behind. -/
structure BodySpec (outer : Nat) (c0 : List K) (st : SolveState K) : Prop where
  /-- coverages of a converged state come from an accepted guess or a root -/
  conv : (outerBody env outer c0 st).1.converged = true → st.converged = false →
    ∃ x r, (outerBody env outer c0 st).1.coverages = some x ∧ env.resid x = .ok r ∧ r ≤ env.tol ∧ (x = c0 ∨ ∀ c ∈ x, 0 ≤ c)
  /-- while there is a hybrid method, the loop is left with an accepted guess or a root -/
  leave : (outerBody env outer c0 st).2 = .leave → env.hybrid = none ∨ ((outerBody env outer c0 st).1.converged = true ∧
    ∃ x r, (outerBody env outer c0 st).1.coverages = some x ∧ env.resid x = .ok r ∧ r ≤ env.tol ∧ (x = c0 ∨ ∀ c ∈ x, 0 ≤ c))
  next : ∀ o c, (outerBody env outer c0 st).2 = .again o c → o = outer + 1 ∧
    ∃ h, env.hybrid = some h ∧ h (outerBody env outer c0 st).1.coverages outer = .ok c
  arch : (outerBody env outer c0 st).1.archived = st.archived

omit [Field K] [LinearOrder K] in
theorem askHybrid_again {kept : Option (List K)} {outer o : Nat} {c : List K} (h : askHybrid env kept outer = .again o c) :
    o = outer + 1 ∧ ∃ g, env.hybrid = some g ∧ g kept outer = .ok c := by
  unfold askHybrid at h
  cases hh : env.hybrid with
  | none => rw [hh] at h; cases h
  | some g =>
    rw [hh] at h
    dsimp only at h
    cases hg : g kept outer with
    | error e => rw [hg] at h; cases h
    | ok c' => rw [hg] at h; cases h; exact ⟨rfl, g, rfl, hg⟩

omit [Field K] [LinearOrder K] in
theorem askHybrid_leave {kept : Option (List K)} {outer : Nat} (h : askHybrid env kept outer = .leave) : env.hybrid = none := by
  unfold askHybrid at h
  cases hh : env.hybrid with
  | none => rfl
  | some g =>
    rw [hh] at h
    dsimp only at h
    cases hg : g kept outer with
    | error e => rw [hg] at h; cases h
    | ok c' => rw [hg] at h; cases h

omit [Field K] [LinearOrder K] in
theorem catchZero_again {kept : Option (List K)} {outer o : Nat} {c : List K} {e : PyErr} (h : catchZero env kept outer e = .again o c) :
    o = outer + 1 ∧ ∃ g, env.hybrid = some g ∧ g kept outer = .ok c := by
  unfold catchZero at h
  split at h
  · exact askHybrid_again env h
  · cases h

omit [Field K] [LinearOrder K] in
theorem catchZero_leave {kept : Option (List K)} {outer : Nat} {e : PyErr} (h : catchZero env kept outer e = .leave) : env.hybrid = none := by
  unfold catchZero at h
  split at h
  · exact askHybrid_leave env h
  · cases h

/-- The state in which the loop over the iterator starts. -/
def afterSetup (outer : Nat) (st : SolveState K) : SolveState K :=
  { st with calls := st.calls ++ allCalls env.plugins (.setup · outer) }

theorem outerBody_iter {outer : Nat} {c0 : List K} {st : SolveState K} {r : K} (hr : env.resid c0 = .ok r)
    (hg : ¬ (r ≤ env.tol ∧ env.singlePt = false)) :
    outerBody env outer c0 st = (match innerLoop env outer (env.newton c0).2 0 (afterSetup env outer st) (env.newton c0).1 with
      | (st, .success) => (st, .leave)
      | (st, .failed) => (st, askHybrid env st.coverages outer)
      | (st, .raised e) => (st, catchZero env st.coverages outer e)
      | (st, .hangs) => (st, .hangs)) := by
  unfold outerBody
  rw [hr]
  dsimp only
  rw [if_neg hg]
  rfl

theorem outerBody_spec (outer : Nat) (c0 : List K) (st : SolveState K) : BodySpec env outer c0 st := by
  cases hr : env.resid c0 with
  | error e =>
    have eq : outerBody env outer c0 st = (st, catchZero env st.coverages outer e) := by unfold outerBody; rw [hr]
    constructor
    · rw [eq]; intro h h'; rw [h'] at h; cases h
    · rw [eq]; exact fun h => .inl (catchZero_leave env h)
    · rw [eq]; exact fun o c h => catchZero_again env h
    · rw [eq]
  | ok r =>
    by_cases hg : r ≤ env.tol ∧ env.singlePt = false
    · cases he : env.goodError c0 with
      | error e =>
        have eq : outerBody env outer c0 st = ({ st with converged := true, coverages := some c0 }, catchZero env (some c0) outer e) := by
          unfold outerBody; rw [hr]; dsimp only; rw [if_pos hg, he]
        constructor
        · rw [eq]; exact fun _ _ => ⟨c0, r, rfl, hr, hg.1, .inl rfl⟩
        · rw [eq]; exact fun _ => .inr ⟨rfl, c0, r, rfl, hr, hg.1, .inl rfl⟩
        · rw [eq]; exact fun o c h => catchZero_again env h
        · rw [eq]
      | ok err =>
        have eq : outerBody env outer c0 st = ({ st with converged := true, coverages := some c0, error := some err }, .leave) := by
          unfold outerBody; rw [hr]; dsimp only; rw [if_pos hg, he]
        constructor
        · rw [eq]; exact fun _ _ => ⟨c0, r, rfl, hr, hg.1, .inl rfl⟩
        · rw [eq]; exact fun _ => .inr ⟨rfl, c0, r, rfl, hr, hg.1, .inl rfl⟩
        · rw [eq]; exact fun o c h => by cases h
        · rw [eq]
    · have eq := outerBody_iter env (outer := outer) (st := st) hr hg
      obtain ⟨m, -, -, harch, hsucc, hval, hfail⟩ := innerLoop_spec env outer (env.newton c0).2 (env.newton c0).1 0 (afterSetup env outer st)
      generalize innerLoop env outer (env.newton c0).2 0 (afterSetup env outer st) (env.newton c0).1 = R at *
      obtain ⟨st1, b⟩ := R
      have ha : st1.archived = st.archived := harch
      cases b with
      | success =>
        obtain ⟨it, hit, hc, he, hv⟩ := hval rfl
        obtain ⟨it', hit', r', h1, -, -, h4, -, h6⟩ := hsucc.mp rfl
        have : it' = it := Option.some.inj (hit'.symm.trans hit)
        subst this
        constructor
        · rw [eq]; exact fun _ _ => ⟨it'.1, r', hc, h1, h4.le, .inr h6⟩
        · rw [eq]; exact fun _ => .inr ⟨hv, it'.1, r', hc, h1, h4.le, .inr h6⟩
        · rw [eq]; exact fun o c h => by cases h
        · rw [eq]; exact ha
      | failed =>
        have hst : st1.converged = st.converged := hfail (fun h => (nomatch h))
        constructor
        · rw [eq]; intro h h'; rw [show st1.converged = true from h] at hst; rw [← hst] at h'; cases h'
        · rw [eq]; exact fun h => .inl (askHybrid_leave env h)
        · rw [eq]; exact fun o c h => askHybrid_again env h
        · rw [eq]; exact ha
      | raised e =>
        have hst : st1.converged = st.converged := hfail (fun h => (nomatch h))
        constructor
        · rw [eq]; intro h h'; rw [show st1.converged = true from h] at hst; rw [← hst] at h'; cases h'
        · rw [eq]; exact fun h => .inl (catchZero_leave env h)
        · rw [eq]; exact fun o c h => catchZero_again env h
        · rw [eq]; exact ha
      | hangs =>
        have hst : st1.converged = st.converged := hfail (fun h => (nomatch h))
        constructor
        · rw [eq]; intro h h'; rw [show st1.converged = true from h] at hst; rw [← hst] at h'; cases h'
        · rw [eq]; exact fun h => by cases h
        · rw [eq]; exact fun o c h => by cases h
        · rw [eq]; exact ha

/-! ### What is returned -/

omit [Field K] [LinearOrder K] in
theorem finalizeAll_fields (outer : Nat) (r : SolveState K × BodyEnd K) : (finalizeAll env outer r).coverages = r.1.coverages ∧
    (finalizeAll env outer r).error = r.1.error ∧ (finalizeAll env outer r).converged = r.1.converged ∧
    (finalizeAll env outer r).archived = r.1.archived := by
  unfold finalizeAll
  split <;> exact ⟨rfl, rfl, rfl, rfl⟩

omit [Field K] [LinearOrder K] in
theorem finish_returned {c0 x : List K} {st st' : SolveState K} (h : finish c0 st = (st', .returned x)) :
    st.converged = true ∧ st.coverages = some x ∧ st'.coverages = some x ∧ ∃ e, st.error = some e ∧
      st'.archived = st.archived ++ [.coverages x, .error e, .guess c0] := by
  unfold finish at h
  by_cases hc : st.converged = true
  · rw [if_pos hc] at h
    split at h
    · rename_i x' e hx he
      have h1 := (Prod.mk.inj h).1
      have h2 := Outcome.returned.inj (Prod.mk.inj h).2
      subst h1 h2
      exact ⟨hc, hx, hx, e, he, rfl⟩
    · cases (Prod.mk.inj h).2
  · rw [if_neg hc] at h
    cases (Prod.mk.inj h).2

theorem outerLoop_succ (n outer : Nat) (c0 : List K) (st : SolveState K) : outerLoop env (n + 1) outer c0 st =
    (match (outerBody env outer c0 st).2 with
    | .leave => some (finish c0 (finalizeAll env outer (outerBody env outer c0 st)))
    | .again outer' c0' => outerLoop env n outer' c0' (finalizeAll env outer (outerBody env outer c0 st))
    | .raised e => some (finalizeAll env outer (outerBody env outer c0 st), .raised e)
    | .hangs => some (finalizeAll env outer (outerBody env outer c0 st), .hangs)) := rfl

/-- The guesses that come from the hybrid method. -/
def FromHybrid (G : List K → Prop) : Prop := ∀ h kept o c, env.hybrid = some h → h kept o = .ok c → G c

theorem outerLoop_returned (G : List K → Prop) (hG : FromHybrid env G) : ∀ (n outer : Nat) (c0 : List K) (st : SolveState K),
    G c0 → (env.hybrid = none → st.converged = false) → ∀ st' x, outerLoop env n outer c0 st = some (st', .returned x) →
    (∃ r, env.resid x = .ok r ∧ r ≤ env.tol) ∧ (G x ∨ ∀ c ∈ x, 0 ≤ c) ∧ st'.coverages = some x ∧
    ∃ e c, st'.archived = st.archived ++ [.coverages x, .error e, .guess c]
  | 0, _, _, _, _, _ => by rintro st' x h; cases h
  | n + 1, outer, c0, st, hc0, hst => by
    intro st' x h
    rw [outerLoop_succ] at h
    have spec := outerBody_spec env outer c0 st
    obtain ⟨f1, f2, f3, f4⟩ := finalizeAll_fields env outer (outerBody env outer c0 st)
    generalize hb : (outerBody env outer c0 st).2 = b at *
    cases b with
    | leave =>
      obtain ⟨g1, g2, g3, e, g4, g5⟩ := finish_returned (Option.some.inj h)
      rw [f3] at g1
      rw [f1] at g2
      rw [f4, spec.arch] at g5
      have good : ∃ x r, (outerBody env outer c0 st).1.coverages = some x ∧ env.resid x = .ok r ∧ r ≤ env.tol ∧ (x = c0 ∨ ∀ c ∈ x, 0 ≤ c) := by
        rcases spec.leave hb with h' | ⟨-, h'⟩
        · exact spec.conv g1 (hst h')
        · exact h'
      obtain ⟨x', r, h1, h2, h3, h4⟩ := good
      have : x' = x := Option.some.inj (h1.symm.trans g2)
      subst this
      exact ⟨⟨r, h2, h3⟩, h4.imp (fun he => by rw [he]; exact hc0) id, g3, e, c0, g5⟩
    | again o c =>
      obtain ⟨-, g, hg, hgc⟩ := spec.next o c hb
      obtain ⟨h1, h2, h3, e, c', h4⟩ := outerLoop_returned G hG n o c _ (hG g _ outer c hg hgc) (fun h' => by rw [hg] at h'; cases h') st' x h
      exact ⟨h1, h2, h3, e, c', by rw [h4, f4, spec.arch]⟩
    | raised e => cases Option.some.inj h
    | hangs => cases Option.some.inj h

theorem getSteady_start {constrain : List K → Py (List K)} {n : Nat} {c0 : Option (List K)} {st st' : SolveState K} {out : Outcome K}
    (h : getSteady env constrain n c0 st = some (st', out)) :
    (∃ e, out = .raised e ∧ st' = st) ∨ ∃ c c', constrain c = .ok c' ∧ (c0 = some c ∨ c0 = none ∧ ∃ g, env.hybrid = some g ∧ g st.coverages 0 = .ok c) ∧
      outerLoop env n 1 c' { st with converged := false } = some (st', out) := by
  unfold getSteady at h
  dsimp only at h
  split at h
  · rename_i e he
    cases Option.some.inj h
    exact .inl ⟨e, rfl, rfl⟩
  · rename_i c' hc'
    right
    cases c0 with
    | some c1 =>
      obtain ⟨c, hc, hcc⟩ := bind_ok.mp hc'
      exact ⟨c, c', hcc, .inl (congrArg some (pure_ok.mp hc)), h⟩
    | none =>
      dsimp only at hc'
      cases hh : env.hybrid with
      | none => rw [hh] at hc'; cases hc'
      | some g =>
        rw [hh] at hc'
        obtain ⟨c, hc, hcc⟩ := bind_ok.mp hc'
        exact ⟨c, c', hcc, .inr ⟨rfl, g, rfl, hc⟩, h⟩

/-- **C31** Whenever the search returns coverages, their residual with the energies given is at most the tolerance;
they are the coverages the solver keeps, and they are archived with their error and the guess. -/
theorem C31_residual (constrain : List K → Py (List K)) (n : Nat) (c0 : Option (List K)) (st st' : SolveState K) (x : List K)
    (h : getSteady env constrain n c0 st = some (st', .returned x)) :
    (∃ r, env.resid x = .ok r ∧ r ≤ env.tol) ∧ st'.coverages = some x ∧
      ∃ e c, st'.archived = st.archived ++ [.coverages x, .error e, .guess c] := by
  rcases getSteady_start env h with ⟨e, h', -⟩ | ⟨c, c', -, -, h'⟩
  · cases h'
  · obtain ⟨h1, -, h3, h4⟩ := outerLoop_returned env (fun _ => True) (fun _ _ _ _ _ _ => trivial) n 1 c' _ trivial (fun _ => rfl) st' x h'
    exact ⟨h1, h3, h4⟩

/-- **C31** (partial) No coverage returned is negative, provided the hybrid method proposes none; without this the guess
of the hybrid method is returned as it is when its residual is small. The first guess needs no assumption, as it is made
physical first. -/
theorem C31_nonneg_partial (constrain : List K → Py (List K)) (hcon : ∀ c c', constrain c = .ok c' → ∀ y ∈ c', 0 ≤ y)
    (hhyb : FromHybrid env (fun c => ∀ y ∈ c, 0 ≤ y)) (n : Nat) (c0 : Option (List K)) (st st' : SolveState K) (x : List K)
    (h : getSteady env constrain n c0 st = some (st', .returned x)) : ∀ y ∈ x, 0 ≤ y := by
  rcases getSteady_start env h with ⟨e, h', -⟩ | ⟨c, c', hc, -, h'⟩
  · cases h'
  · obtain ⟨-, h2, -⟩ := outerLoop_returned env _ hhyb n 1 c' _ (hcon c c' hc) (fun _ => rfl) st' x h'
    exact h2.elim id id

/-! ### When there is nothing to return -/

theorem outerLoop_none (hh : env.hybrid ≠ none) : ∀ (n outer : Nat) (c0 : List K) (st : SolveState K),
    ∀ st', outerLoop env n outer c0 st ≠ some (st', .none)
  | 0, _, _, _ => by rintro st' h; cases h
  | n + 1, outer, c0, st => by
    intro st' h
    rw [outerLoop_succ] at h
    have spec := outerBody_spec env outer c0 st
    obtain ⟨f1, f2, f3, f4⟩ := finalizeAll_fields env outer (outerBody env outer c0 st)
    generalize hb : (outerBody env outer c0 st).2 = b at *
    cases b with
    | leave =>
      rcases spec.leave hb with h' | ⟨h', -⟩
      · exact hh h'
      · have h := Option.some.inj h
        unfold finish at h
        rw [f3, h', if_pos rfl] at h
        split at h <;> cases (Prod.mk.inj h).2
    | again o c => exact outerLoop_none hh n o c _ st' h
    | raised e => cases Option.some.inj h
    | hangs => cases Option.some.inj h

/-- **C31** `None` is returned only without a hybrid method, and then the guess was not good and the iteration ended, or
was given up, at an item that is not a root. With a hybrid method the search never returns `None`. -/
theorem C31_none (constrain : List K → Py (List K)) (n : Nat) (c0 : Option (List K)) (st st' : SolveState K)
    (h : getSteady env constrain n c0 st = some (st', .none)) :
    env.hybrid = none ∧ st'.archived = st.archived ∧ ∃ c c', c0 = some c ∧ constrain c = .ok c' ∧ ¬ GoodGuess env c' ∧
      (env.resid c' = .error .ZeroDivisionError ∨
        ∃ m, StopsAfter env 0 (env.newton c').1 m ∧ ∀ it, (env.newton c').1[m]? = some it → ¬ IsRoot env m it) := by
  rcases getSteady_start env h with ⟨e, h', -⟩ | ⟨c, c', hc, hfrom, h'⟩
  · cases h'
  have hh : env.hybrid = none := by
    by_contra hh
    exact outerLoop_none env hh n 1 c' _ st' h'
  have hc0 : c0 = some c := by
    rcases hfrom with h | ⟨-, g, hg, -⟩
    · exact h
    · rw [hh] at hg; cases hg
  cases n with
  | zero => cases h'
  | succ n =>
    rw [outerLoop_succ] at h'
    have spec := outerBody_spec env 1 c' { st with converged := false }
    obtain ⟨f1, f2, f3, f4⟩ := finalizeAll_fields env 1 (outerBody env 1 c' { st with converged := false })
    have hl : (outerBody env 1 c' { st with converged := false }).2 = .leave ∧
        (outerBody env 1 c' { st with converged := false }).1.converged = false ∧ st'.archived = st.archived := by
      generalize hb : (outerBody env 1 c' { st with converged := false }).2 = b at *
      cases b with
      | leave =>
        have h'' := Option.some.inj h'
        unfold finish at h''
        by_cases hcv : (finalizeAll env 1 (outerBody env 1 c' { st with converged := false })).converged = true
        · rw [if_pos hcv] at h''
          split at h'' <;> cases (Prod.mk.inj h'').2
        · rw [if_neg hcv] at h''
          refine ⟨rfl, ?_, ?_⟩
          · rw [f3] at hcv
            simpa using hcv
          · rw [← (Prod.mk.inj h'').1, f4, spec.arch]
      | again o c1 =>
        obtain ⟨-, g, hg, -⟩ := spec.next o c1 hb
        rw [hh] at hg; cases hg
      | raised e => cases Option.some.inj h'
      | hangs => cases Option.some.inj h'
    refine ⟨hh, hl.2.2, c, c', hc0, hc, ?_, ?_⟩
    · rintro ⟨r, hr, h1, h2⟩
      have h3 := hl.2.1
      unfold outerBody at h3
      rw [hr] at h3
      dsimp only at h3
      rw [if_pos ⟨h1, h2⟩] at h3
      split at h3 <;> cases h3
    · cases hr : env.resid c' with
      | error e =>
        left
        have h3 := hl.1
        unfold outerBody catchZero at h3
        rw [hr] at h3
        dsimp only at h3
        split at h3
        · rename_i he
          rw [he]
        · cases h3
      | ok r =>
        right
        obtain ⟨m, hm, -, -, hsucc, hval, -⟩ :=
          innerLoop_spec env 1 (env.newton c').2 (env.newton c').1 0 (afterSetup env 1 { st with converged := false })
        refine ⟨m, hm, fun it hit hroot => ?_⟩
        rw [Nat.zero_add] at hsucc
        have hs := hsucc.mpr ⟨it, hit, hroot⟩
        obtain ⟨it', -, -, -, hcv⟩ := hval hs
        have h3 := hl.2.1
        by_cases hg : r ≤ env.tol ∧ env.singlePt = false
        · unfold outerBody at h3
          rw [hr] at h3
          dsimp only at h3
          rw [if_pos hg] at h3
          split at h3 <;> cases h3
        · rw [outerBody_iter env hr hg] at h3
          generalize innerLoop env 1 (env.newton c').2 0 (afterSetup env 1 { st with converged := false }) (env.newton c').1 = R at *
          obtain ⟨s1, b⟩ := R
          cases hs
          rw [show s1.converged = true from hcv] at h3
          cases h3

omit [Field K] in
theorem stopsAfter_unique {nt m m' : Nat} {items : List (List K × K)} (h : StopsAfter env nt items m) (h' : StopsAfter env nt items m') : m = m' := by
  rcases Nat.lt_trichotomy m m' with hlt | rfl | hlt
  · have hm : m < items.length := Nat.lt_of_lt_of_le hlt h'.2.1
    exact absurd (h'.1 m _ hlt (List.getElem?_eq_getElem hm)) (h.2.2 _ (List.getElem?_eq_getElem hm))
  · rfl
  · have hm : m' < items.length := Nat.lt_of_lt_of_le hlt h.2.1
    exact absurd (h.1 m' _ hlt (List.getElem?_eq_getElem hm)) (h'.2.2 _ (List.getElem?_eq_getElem hm))

/-- The loop from any guess, in any round. -/
theorem outerLoop_found (n outer : Nat) (c' : List K) (st : SolveState K) :
    ((GoodGuess env c' ∧ ∃ e, env.goodError c' = .ok e) → ∃ st', outerLoop env (n + 1) outer c' st = some (st', .returned c')) ∧
    (∀ r m it, env.resid c' = .ok r → ¬ GoodGuess env c' → StopsAfter env 0 (env.newton c').1 m → (env.newton c').1[m]? = some it →
      IsRoot env m it → ∃ st', outerLoop env (n + 1) outer c' st = some (st', .returned it.1)) := by
  constructor
  · rintro ⟨⟨r, hr, h1, h2⟩, e, he⟩
    have : outerBody env outer c' st =
        ({ st with converged := true, coverages := some c', error := some e }, .leave) := by
      unfold outerBody; rw [hr]; dsimp only; rw [if_pos ⟨h1, h2⟩, he]
    rw [outerLoop_succ, this]
    exact ⟨_, rfl⟩
  · intro r m it hr hg hm hit hroot
    have hg' : ¬ (r ≤ env.tol ∧ env.singlePt = false) := fun h => hg ⟨r, hr, h⟩
    obtain ⟨m', hm', -, -, hsucc, hval, -⟩ :=
      innerLoop_spec env outer (env.newton c').2 (env.newton c').1 0 (afterSetup env outer st)
    have := stopsAfter_unique env hm' hm
    subst this
    rw [Nat.zero_add] at hsucc
    have hs := hsucc.mpr ⟨it, hit, hroot⟩
    obtain ⟨it', hit', g1, g2, g3⟩ := hval hs
    have : it' = it := Option.some.inj (hit'.symm.trans hit)
    subst this
    have hb := outerBody_iter env (outer := outer) (st := st) hr hg'
    generalize innerLoop env outer (env.newton c').2 0 (afterSetup env outer st) (env.newton c').1 = R at *
    obtain ⟨s1, b⟩ := R
    cases hs
    dsimp only at hb g1 g2 g3
    rw [outerLoop_succ, hb]
    refine ⟨{ (finalizeAll env outer (s1, .leave)) with archived := s1.archived ++ [.coverages it'.1, .error it'.2, .guess c'] }, ?_⟩
    dsimp only
    unfold finish finalizeAll
    dsimp only
    rw [g3, if_pos rfl, g1, g2]

theorem getSteady_some {constrain : List K → Py (List K)} {c c' : List K} (hc : constrain c = .ok c') (n : Nat) (st : SolveState K) :
    getSteady env constrain n (some c) st = outerLoop env n 1 c' { st with converged := false } := by
  unfold getSteady
  dsimp only
  rw [show ((pure c : Py (List K)) >>= constrain) = .ok c' from hc]

/-- **C31** The other way round: if the first item after which the iteration does not go on is a root, it is returned,
and a good guess is returned as it is. -/
theorem C31_found (constrain : List K → Py (List K)) (n : Nat) (c c' : List K) (st : SolveState K) (hc : constrain c = .ok c') :
    ((GoodGuess env c' ∧ ∃ e, env.goodError c' = .ok e) → ∃ st', getSteady env constrain (n + 1) (some c) st = some (st', .returned c')) ∧
    (∀ r m it, env.resid c' = .ok r → ¬ GoodGuess env c' → StopsAfter env 0 (env.newton c').1 m → (env.newton c').1[m]? = some it →
      IsRoot env m it → ∃ st', getSteady env constrain (n + 1) (some c) st = some (st', .returned it.1)) := by
  rw [getSteady_some env hc]
  exact outerLoop_found env n 1 c' _

/-! ## C32 The plugins -/

/-- The plugin is called in the iteration for a guess only if the guess has a residual and is not good. -/
def Iterates (c0 : List K) : Prop := ∃ r, env.resid c0 = .ok r ∧ ¬ (r ≤ env.tol ∧ env.singlePt = false)

/-- Calls of `register_step` in `m` steps. -/
def stepsUpTo (plugins : List SolvePlugin) (m outer : Nat) : List PluginCall :=
  (List.range m).flatMap (fun j => stepCalls plugins (j + 1) outer)

/-- The calls for one guess: `k` is the number given to `finalize`. -/
def RoundCalls (outer k : Nat) (c0 : List K) (calls : List PluginCall) : Prop :=
  (Iterates env c0 ∧ ∃ m, StopsAfter env 0 (env.newton c0).1 m ∧
    calls = allCalls env.plugins (.setup · outer) ++ stepsUpTo env.plugins m outer ++ allCalls env.plugins (.finalize · k)) ∨
  (¬ Iterates env c0 ∧ calls = allCalls env.plugins (.finalize · k))

theorem outerBody_calls (outer : Nat) (c0 : List K) (st : SolveState K) :
    (Iterates env c0 ∧ ∃ m, StopsAfter env 0 (env.newton c0).1 m ∧
      (outerBody env outer c0 st).1.calls = st.calls ++ (allCalls env.plugins (.setup · outer) ++ stepsUpTo env.plugins m outer)) ∨
    (¬ Iterates env c0 ∧ (outerBody env outer c0 st).1.calls = st.calls) := by
  cases hr : env.resid c0 with
  | error e =>
    right
    refine ⟨fun ⟨r, h, _⟩ => (by rw [hr] at h; cases h), ?_⟩
    unfold outerBody; rw [hr]
  | ok r =>
    by_cases hg : r ≤ env.tol ∧ env.singlePt = false
    · right
      refine ⟨fun ⟨r', h, h'⟩ => (by rw [hr] at h; cases h; exact h' hg), ?_⟩
      unfold outerBody; rw [hr]; dsimp only; rw [if_pos hg]
      cases env.goodError c0 <;> rfl
    · left
      obtain ⟨m, hm, hcalls, -⟩ := innerLoop_spec env outer (env.newton c0).2 (env.newton c0).1 0 (afterSetup env outer st)
      refine ⟨⟨r, hr, hg⟩, m, hm, ?_⟩
      rw [outerBody_iter env hr hg]
      have key : (innerLoop env outer (env.newton c0).2 0 (afterSetup env outer st) (env.newton c0).1).1.calls =
          st.calls ++ (allCalls env.plugins (.setup · outer) ++ stepsUpTo env.plugins m outer) := by
        rw [hcalls, ← List.append_assoc]
        congr 1
        unfold stepsUpTo
        apply List.flatMap_congr
        intro j _
        rw [Nat.zero_add]
      generalize innerLoop env outer (env.newton c0).2 0 (afterSetup env outer st) (env.newton c0).1 = R at *
      obtain ⟨s1, b⟩ := R
      cases b <;> exact key

theorem round_calls (outer : Nat) (c0 : List K) (st : SolveState K) (hh : (outerBody env outer c0 st).2 ≠ .hangs) :
    ∃ calls k, (finalizeAll env outer (outerBody env outer c0 st)).calls = st.calls ++ calls ∧ RoundCalls env outer k c0 calls ∧
      ((∃ o c, (outerBody env outer c0 st).2 = .again o c ∧ k = o) ∨ ((∀ o c, (outerBody env outer c0 st).2 ≠ .again o c) ∧ k = outer)) := by
  have main : ∃ k, (finalizeAll env outer (outerBody env outer c0 st)).calls =
      (outerBody env outer c0 st).1.calls ++ allCalls env.plugins (.finalize · k) ∧
      ((∃ o c, (outerBody env outer c0 st).2 = .again o c ∧ k = o) ∨ ((∀ o c, (outerBody env outer c0 st).2 ≠ .again o c) ∧ k = outer)) := by
    generalize outerBody env outer c0 st = R at *
    obtain ⟨s1, b⟩ := R
    cases b with
    | leave => exact ⟨outer, rfl, .inr ⟨fun _ _ h => (nomatch h), rfl⟩⟩
    | again o c => exact ⟨o, rfl, .inl ⟨o, c, rfl, rfl⟩⟩
    | raised e => exact ⟨outer, rfl, .inr ⟨fun _ _ h => (nomatch h), rfl⟩⟩
    | hangs => exact absurd rfl hh
  obtain ⟨k, h1, h2⟩ := main
  rcases outerBody_calls env outer c0 st with ⟨hi, m, hm, hc⟩ | ⟨hi, hc⟩
  · exact ⟨_, k, by rw [h1, hc, List.append_assoc], .inl ⟨hi, m, hm, rfl⟩, h2⟩
  · exact ⟨_, k, by rw [h1, hc], .inr ⟨hi, rfl⟩, h2⟩

/-- The calls of a whole search: one block for each guess, the guesses after the first being those of the hybrid method. -/
inductive RunCalls : Nat → List K → List PluginCall → Prop
  | last {outer c0 calls} : RoundCalls env outer outer c0 calls → RunCalls outer c0 calls
  | again {outer c0 c h kept calls rest} : RoundCalls env outer (outer + 1) c0 calls → env.hybrid = some h → h kept outer = .ok c →
      RunCalls (outer + 1) c rest → RunCalls outer c0 (calls ++ rest)

theorem outerLoop_calls : ∀ (n outer : Nat) (c0 : List K) (st st' : SolveState K) (out : Outcome K),
    outerLoop env n outer c0 st = some (st', out) → out ≠ .hangs → ∃ calls, RunCalls env outer c0 calls ∧ st'.calls = st.calls ++ calls
  | 0, _, _, _, _, _, h, _ => by cases h
  | n + 1, outer, c0, st, st', out, h, hout => by
    rw [outerLoop_succ] at h
    have spec := outerBody_spec env outer c0 st
    have rc := round_calls env outer c0 st
    have fin : ∀ c (s : SolveState K), (finish c s).1.calls = s.calls := by
      intro c s
      unfold finish
      split
      · split <;> rfl
      · rfl
    generalize hb : (outerBody env outer c0 st).2 = b at *
    cases b with
    | leave =>
      obtain ⟨calls, k, h1, h2, ⟨o, c, hoc, -⟩ | ⟨-, rfl⟩⟩ := rc (fun h => (nomatch h))
      · cases hoc
      · refine ⟨calls, .last h2, ?_⟩
        rw [← h1, ← fin c0 (finalizeAll env _ (outerBody env _ c0 st)), Option.some.inj h]
    | again o c =>
      obtain ⟨calls, k, h1, h2, ⟨o', c', hoc, rfl⟩ | ⟨hno, -⟩⟩ := rc (fun h => (nomatch h))
      · obtain ⟨rfl, g, hg, hgc⟩ := spec.next o c hb
        cases hoc
        obtain ⟨rest, h3, h4⟩ := outerLoop_calls n _ _ _ _ _ h hout
        exact ⟨calls ++ rest, .again h2 hg hgc h3, by rw [h4, h1, List.append_assoc]⟩
      · exact absurd rfl (hno o c)
    | raised e =>
      obtain ⟨calls, k, h1, h2, ⟨o, c, hoc, -⟩ | ⟨-, rfl⟩⟩ := rc (fun h => (nomatch h))
      · cases hoc
      · cases Option.some.inj h
        exact ⟨calls, .last h2, h1⟩
    | hangs =>
      cases Option.some.inj h
      exact absurd rfl hout

/-- **C32** (partial) The calls of the plugins in a search that ends: one block for each guess tried, in order. A block
begins with `setup` of every plugin, continues with `register_step` at the accepted steps and ends with `finalize` of
every plugin. A search that could not even begin calls nothing. What is missing for the full claim: `finalize` is given the number of the next guess, and it is called
without `setup` for a guess that is good or has no residual. -/
theorem C32_blocks_partial (constrain : List K → Py (List K)) (n : Nat) (c0 : Option (List K)) (st st' : SolveState K) (out : Outcome K)
    (h : getSteady env constrain n c0 st = some (st', out)) (hout : out ≠ .hangs) :
    ((∃ e, out = .raised e) ∧ st' = st) ∨ ∃ c calls, RunCalls env 1 c calls ∧ st'.calls = st.calls ++ calls := by
  rcases getSteady_start env h with ⟨e, h1, h2⟩ | ⟨c, c', -, -, h'⟩
  · exact .inl ⟨⟨e, ‹_›⟩, ‹_›⟩
  · obtain ⟨calls, h1, h2⟩ := outerLoop_calls env n 1 c' _ st' out h' hout
    exact .inr ⟨c', calls, h1, h2⟩

/-- The plugin a call is made on. -/
def PluginCall.plugin : PluginCall → Nat
  | .setup p _ => p
  | .step p _ _ => p
  | .finalize p _ => p

omit env in
omit [Field K] [LinearOrder K] in
theorem filterMap_plugin (inner outer : Nat) : ∀ (plugins : List SolvePlugin) (k p : Nat) (d : SolvePlugin), plugins[p]? = some d →
    ((plugins.zipIdx k).filterMap fun q => if inner % q.1.interval = 0 then some (PluginCall.step q.2 inner outer) else none).filter
      (fun c => c.plugin = p + k) = if d.interval ∣ inner then [.step (p + k) inner outer] else []
  | [], _, p, d, h => by simp at h
  | q :: rest, k, 0, d, h => by
    have : q = d := by simpa using h
    subst this
    have tail : ((rest.zipIdx (k + 1)).filterMap fun q => if inner % q.1.interval = 0 then some (PluginCall.step q.2 inner outer) else none).filter
        (fun c => c.plugin = 0 + k) = [] := by
      rw [List.filter_eq_nil_iff]
      intro c hc
      obtain ⟨⟨q', i⟩, hq, hqc⟩ := List.mem_filterMap.mp hc
      have hi := (List.mem_zipIdx hq).1
      dsimp only at hqc
      split at hqc
      · cases hqc
        simp only [PluginCall.plugin]
        simp
        omega
      · cases hqc
    rw [List.zipIdx_cons, List.filterMap_cons]
    by_cases hd : inner % q.interval = 0
    · simp only [hd, if_true]
      rw [List.filter_cons_of_pos (by simp [PluginCall.plugin]), tail, if_pos (Nat.dvd_of_mod_eq_zero hd), Nat.zero_add]
    · simp only [hd, if_false]
      rw [tail, if_neg (fun h => hd (Nat.mod_eq_zero_of_dvd h))]
  | q :: rest, k, p + 1, d, h => by
    rw [List.getElem?_cons_succ] at h
    have ih := filterMap_plugin inner outer rest (k + 1) p d h
    rw [List.zipIdx_cons, List.filterMap_cons]
    rw [show p + 1 + k = p + (k + 1) by omega]
    by_cases hd : inner % q.interval = 0
    · simp only [hd, if_true]
      rw [List.filter_cons_of_neg (by intro h; have h := of_decide_eq_true h; simp only [PluginCall.plugin] at h; omega), ih]
    · simp only [hd, if_false]
      exact ih

omit env in
omit [Field K] [LinearOrder K] in
/-- **C32** A plugin sees `register_step` exactly at the steps whose number is a multiple of its interval, in order, each
once. -/
theorem C32_steps (plugins : List SolvePlugin) (p : Nat) (d : SolvePlugin) (hp : plugins[p]? = some d) (m outer : Nat) :
    (stepsUpTo plugins m outer).filter (fun c => c.plugin = p) =
      ((List.range' 1 m).filter (fun j => d.interval ∣ j)).map (fun j => .step p j outer) := by
  unfold stepsUpTo
  rw [List.filter_flatMap]
  have h : ∀ j, (stepCalls plugins (j + 1) outer).filter (fun c => c.plugin = p) =
      if d.interval ∣ j + 1 then [.step p (j + 1) outer] else [] := by
    intro j
    have := filterMap_plugin (j + 1) outer plugins 0 p d hp
    rw [Nat.add_zero] at this
    exact this
  rw [List.range'_eq_map_range, List.filter_map, List.map_map]
  induction m with
  | zero => rfl
  | succ m ih =>
    rw [List.range_succ, List.flatMap_append, List.filter_append, List.map_append, ih]
    congr 1
    rw [List.flatMap_cons, List.flatMap_nil, List.append_nil, h m]
    by_cases hd : d.interval ∣ m + 1
    · rw [if_pos hd, List.filter_cons_of_pos (by simpa [Nat.add_comm] using hd)]
      simp [Nat.add_comm]
    · rw [if_neg hd, List.filter_cons_of_neg (by simpa [Nat.add_comm] using hd)]
      rfl

omit [Field K] in
/-- **C32** The number of steps registered never exceeds the limit. -/
theorem C32_limit (items : List (List K × K)) (m : Nat) (h : StopsAfter env 0 items m) : m = 0 ∨ (m : Int) ≤ env.maxIter := by
  cases m with
  | zero => exact .inl rfl
  | succ m =>
    right
    have hm : m < items.length := h.2.1
    obtain ⟨r, -, h', -⟩ := h.1 m _ (Nat.lt_succ_self _) (List.getElem?_eq_getElem hm)
    rw [Nat.zero_add] at h'
    exact h'

/-! ## C34 Degrees of rate control -/

/-- Energies with both barriers of one reaction shifted. -/
def Shifted (e e' : List K × List K) (i : Nat) (eps : K) : Prop :=
  e'.1.length = e.1.length ∧ e'.2.length = e.2.length ∧
  (∀ j (x : K), e.1[j]? = some x → e'.1[j]? = some (if j = i then x + eps else x)) ∧
  (∀ j (x : K), e.2[j]? = some x → e'.2[j]? = some (if j = i then x + eps else x))

omit [LinearOrder K] in
theorem perturb_ok {heap heap' : EnergyHeap K} {e' : List K × List K} {i : Nat} {eps : K} (h : perturb heap i eps = .ok (heap', e')) :
    ∃ e rest, heap = e :: rest ∧ heap' = heap ++ [e'] ∧ Shifted e e' i eps := by
  unfold perturb at h
  cases heap with
  | nil => cases h
  | cons e rest =>
    obtain ⟨gaf, gar⟩ := e
    dsimp only at h
    split at h
    · obtain ⟨h1, h2⟩ := Prod.mk.inj (Except.ok.inj h)
      refine ⟨(gaf, gar), rest, rfl, ?_, ?_⟩
      · rw [← h1, h2]
      · rw [← h2]
        refine ⟨List.length_modify .., List.length_modify .., ?_, ?_⟩
        · intro j x hx
          dsimp only at hx ⊢
          rw [List.getElem?_modify, hx]
          by_cases hj : i = j
          · simp [hj]
          · simp only [if_neg hj, if_neg (fun h : j = i => hj h.symm)]; rfl
        · intro j x hx
          dsimp only at hx ⊢
          rw [List.getElem?_modify, hx]
          by_cases hj : i = j
          · simp [hj]
          · simp only [if_neg hj, if_neg (fun h : j = i => hj h.symm)]; rfl
    · cases h

variable (xe : XrcEnv K)

/-- What one degree of rate control is computed from. -/
structure XrcFrom (eps : K) (guess : List K) (r : K) (kfs : List K) (e : List K × List K) (i : Nat) (v : XrcValue K) (st st' : SolveState K) : Prop where
  ex : ∃ e' k ks' k' x r', Shifted e e' i eps ∧ kfs[i]? = some k ∧ xe.kf e' = .ok ks' ∧ ks'[i]? = some k' ∧
    xe.steady e' guess st = some (st', .returned x) ∧ xe.tof e' x = .ok r' ∧
    ((r = 0 ∨ k' = k) ∧ v = .inf ∨ ¬ (r = 0 ∨ k' = k) ∧ v = .num (k / r * ((r' - r) / (k' - k))))

theorem xrcOne_ok {eps : K} {guess : List K} {r : K} {kfs : List K} {i : Nat} {e : List K × List K} {rest : EnergyHeap K} {heap' : EnergyHeap K}
    {v : XrcValue K} {st st' : SolveState K} (h : xrcOne xe eps guess r kfs i (e :: rest) st = some (st', .ok (heap', v))) :
    (∃ e', heap' = (e :: rest) ++ [e']) ∧ XrcFrom xe eps guess r kfs e i v st st' := by
  unfold xrcOne at h
  cases hp : perturb (e :: rest) i eps with
  | error er => rw [hp] at h; cases Option.some.inj h
  | ok q =>
    obtain ⟨hp', e'⟩ := q
    obtain ⟨e0, rest0, he, hh, hs⟩ := perturb_ok hp
    cases he
    rw [hp] at h
    dsimp only at h
    cases hk : kfs[i]? with
    | none => rw [hk] at h; cases Option.some.inj h
    | some k =>
      rw [hk] at h
      cases hks : xe.kf e' with
      | error er => rw [hks] at h; cases Option.some.inj h
      | ok ks' =>
        rw [hks] at h
        dsimp only at h
        cases hk' : ks'[i]? with
        | none => rw [hk'] at h; cases Option.some.inj h
        | some k' =>
          rw [hk'] at h
          dsimp only at h
          cases hst : xe.steady e' guess st with
          | none => rw [hst] at h; cases h
          | some q =>
            obtain ⟨st1, out⟩ := q
            rw [hst] at h
            cases out with
            | returned x =>
              dsimp only at h
              cases ht : xe.tof e' x with
              | error er => rw [ht] at h; cases Option.some.inj h
              | ok r' =>
                rw [ht] at h
                have h1 := (Prod.mk.inj (Option.some.inj h)).1
                obtain ⟨h2, h3⟩ := Prod.mk.inj (Except.ok.inj (Prod.mk.inj (Option.some.inj h)).2)
                subst h1
                refine ⟨⟨e', h2.symm.trans hh⟩, e', k, ks', k', x, r', hs, hk, hks, hk', hst, ht, ?_⟩
                rw [← h3]
                unfold xrcValue
                by_cases hc : r = 0 ∨ k' - k = 0
                · rw [if_pos hc]
                  exact .inl ⟨hc.imp id sub_eq_zero.mp, rfl⟩
                · rw [if_neg hc]
                  exact .inr ⟨fun h => hc (h.imp id sub_eq_zero.mpr), rfl⟩
            | none => cases Option.some.inj h
            | raised er => cases Option.some.inj h
            | hangs => cases h

/-- The states the solver passes through: `sts i` before reaction `i`. -/
theorem xrcLoop_ok {eps : K} {guess : List K} {r : K} {kfs : List K} {e : List K × List K} : ∀ (is : List Nat) (rest : EnergyHeap K)
    (heap' : EnergyHeap K) (vs : List (XrcValue K)) (st st' : SolveState K),
    xrcLoop xe eps guess r kfs is (e :: rest) st = some (st', .ok (heap', vs)) →
    (∃ new, heap' = (e :: rest) ++ new) ∧ vs.length = is.length ∧
    ∃ sts : Nat → SolveState K, sts 0 = st ∧ sts is.length = st' ∧
      ∀ j i v, is[j]? = some i → vs[j]? = some v → XrcFrom xe eps guess r kfs e i v (sts j) (sts (j + 1))
  | [], rest, heap', vs, st, st', h => by
    have h1 := (Prod.mk.inj (Option.some.inj h)).1
    obtain ⟨h2, h3⟩ := Prod.mk.inj (Except.ok.inj (Prod.mk.inj (Option.some.inj h)).2)
    subst h1 h2 h3
    exact ⟨⟨[], (List.append_nil _).symm⟩, rfl, fun _ => st, rfl, rfl, by simp⟩
  | i :: is, rest, heap', vs, st, st', h => by
    have eq : xrcLoop xe eps guess r kfs (i :: is) (e :: rest) st = (match xrcOne xe eps guess r kfs i (e :: rest) st with
      | none => none
      | some (st, .error e) => some (st, .error e)
      | some (st, .ok (heap, v)) =>
        match xrcLoop xe eps guess r kfs is heap st with
        | none => none
        | some (st, .error e) => some (st, .error e)
        | some (st, .ok (heap, vs)) => some (st, .ok (heap, v :: vs))) := rfl
    rw [eq] at h
    cases h1 : xrcOne xe eps guess r kfs i (e :: rest) st with
    | none => rw [h1] at h; cases h
    | some q =>
      obtain ⟨st1, q⟩ := q
      rw [h1] at h
      cases q with
      | error er => cases Option.some.inj h
      | ok q =>
        obtain ⟨heap1, v⟩ := q
        obtain ⟨⟨e', rfl⟩, hf⟩ := xrcOne_ok xe h1
        dsimp only at h
        rw [List.cons_append] at h
        cases h2 : xrcLoop xe eps guess r kfs is (e :: (rest ++ [e'])) st1 with
        | none => rw [h2] at h; cases h
        | some q =>
          obtain ⟨st2, q⟩ := q
          rw [h2] at h
          cases q with
          | error er => cases Option.some.inj h
          | ok q =>
            obtain ⟨heap2, vs2⟩ := q
            obtain ⟨⟨new, hnew⟩, hlen, sts, hs0, hsn, hall⟩ := xrcLoop_ok is _ _ _ _ _ h2
            have g1 := (Prod.mk.inj (Option.some.inj h)).1
            obtain ⟨g2, g3⟩ := Prod.mk.inj (Except.ok.inj (Prod.mk.inj (Option.some.inj h)).2)
            subst g1 g2 g3
            refine ⟨⟨e' :: new, by rw [hnew]; simp⟩, by simp [hlen], fun j => if j = 0 then st else sts (j - 1), rfl, ?_, ?_⟩
            · show (if is.length + 1 = 0 then st else sts (is.length + 1 - 1)) = _
              rw [if_neg (Nat.succ_ne_zero _)]
              exact hsn
            · intro j i' v' hi hv
              cases j with
              | zero =>
                have : i = i' := by simpa using hi
                subst this
                have : v = v' := by simpa using hv
                subst this
                show XrcFrom xe eps guess r kfs e i v st (sts 0)
                rw [hs0]
                exact hf
              | succ j =>
                have := hall j i' v' (by simpa using hi) (by simpa using hv)
                exact this

theorem getXRC_ok {eps : K} {n : Nat} {e : List K × List K} {rest heap' : EnergyHeap K} {vs : List (XrcValue K)} {st st' : SolveState K}
    (h : getXRC xe eps n (e :: rest) st = some (st', .ok (heap', vs))) :
    ∃ guess r kfs, st.coverages = some guess ∧ xe.tof e guess = .ok r ∧ xe.kf e = .ok kfs ∧
      xrcLoop xe eps guess r kfs (List.range n) (e :: rest) st = some (st', .ok (heap', vs)) := by
  unfold getXRC at h
  cases hc : st.coverages with
  | none => rw [hc] at h; cases Option.some.inj h
  | some guess =>
    rw [hc] at h
    dsimp only at h
    cases ht : xe.tof e guess with
    | error er => rw [ht] at h; cases Option.some.inj h
    | ok r =>
      rw [ht] at h
      cases hk : xe.kf e with
      | error er => rw [hk] at h; cases Option.some.inj h
      | ok kfs =>
        rw [hk] at h
        exact ⟨guess, r, kfs, rfl, ht, rfl, h⟩

/-- **C34** The energies supplied, and every other energies object that existed, are unchanged; there is one value for
each reaction, and value `i` is `k/r·(Δr/Δk)` for reaction `i`, computed from energies in which only the two barriers of
reaction `i` are shifted, or `inf` where this has no meaning. The search starts from the coverages of the unperturbed model
each time. -/
theorem C34_values (eps : K) (n : Nat) (e : List K × List K) (rest heap' : EnergyHeap K) (vs : List (XrcValue K)) (st st' : SolveState K)
    (h : getXRC xe eps n (e :: rest) st = some (st', .ok (heap', vs))) :
    (e :: rest) <+: heap' ∧ vs.length = n ∧ ∃ guess r kfs, st.coverages = some guess ∧ xe.tof e guess = .ok r ∧ xe.kf e = .ok kfs ∧
      ∀ i v, vs[i]? = some v → ∃ s s', XrcFrom xe eps guess r kfs e i v s s' := by
  obtain ⟨guess, r, kfs, h1, h2, h3, h4⟩ := getXRC_ok xe h
  obtain ⟨⟨new, hnew⟩, hlen, sts, -, -, hall⟩ := xrcLoop_ok xe _ _ _ _ _ _ h4
  rw [List.length_range] at hlen
  refine ⟨⟨new, hnew.symm⟩, hlen, guess, r, kfs, h1, h2, h3, fun i v hv => ?_⟩
  have hi : i < n := by
    rw [← hlen]
    exact (List.getElem?_eq_some_iff.mp hv).1
  exact ⟨sts i, sts (i + 1), hall i i v (by rw [List.getElem?_range hi]) hv⟩

/-- **C34** The value is the logarithmic slope: if the turnover frequency goes as a power `p` to first order,
`Δr/r = p·Δk/k`, the value is `p`. -/
theorem C34_slope (k r dk p : K) (hk : k ≠ 0) (hr : r ≠ 0) (hd : dk ≠ 0) : xrcValue k r (p * r / k * dk) dk = .num p := by
  unfold xrcValue
  rw [if_neg (by rintro (h | h) <;> contradiction)]
  congr 1
  field_simp

/-- **C34** (refuted) The solver's coverages and the archive are not those of the unperturbed model afterwards: after every
successful calculation for a model with at least one reaction, the solver's coverages are the ones found with the barriers
of the last reaction shifted, and they are the last coverages archived. `hs` and `ha` are what `C31_residual` says of the
search. -/
theorem C34_coverages_refuted (eps : K) (n : Nat) (e : List K × List K) (rest heap' : EnergyHeap K) (vs : List (XrcValue K))
    (st st' : SolveState K) (hs : ∀ e' g s s' x, xe.steady e' g s = some (s', .returned x) → s'.coverages = some x ∧
      ∃ er c, s'.archived = s.archived ++ [.coverages x, .error er, .guess c])
    (h : getXRC xe eps (n + 1) (e :: rest) st = some (st', .ok (heap', vs))) :
    ∃ e' guess s x er c before, Shifted e e' n eps ∧ st.coverages = some guess ∧ xe.steady e' guess s = some (st', .returned x) ∧
      st'.coverages = some x ∧ st'.archived = before ++ [.coverages x, .error er, .guess c] := by
  obtain ⟨guess, r, kfs, h1, h2, h3, h4⟩ := getXRC_ok xe h
  obtain ⟨-, hlen, sts, hs0, hsn, hall⟩ := xrcLoop_ok xe _ _ _ _ _ _ h4
  rw [List.length_range] at hlen hsn
  have hv : n < vs.length := by omega
  obtain ⟨e', k, ks', k', x, r', g1, -, -, -, g5, -⟩ := (hall n n _ (by rw [List.getElem?_range (Nat.lt_succ_self n)]) (List.getElem?_eq_getElem hv)).ex
  rw [hsn] at g5
  obtain ⟨g6, er, c, g7⟩ := hs _ _ _ _ _ g5
  exact ⟨e', guess, sts n, x, er, c, (sts n).archived, g1, h1, g5, g6, g7⟩

/-- **C34** Before coverages have been found the calculation is refused, and nothing has changed. -/
theorem C34_no_coverages (eps : K) (n : Nat) (heap : EnergyHeap K) (st : SolveState K) (h : st.coverages = none) :
    getXRC xe eps n heap st = some (st, .error .AttributeError) := by
  unfold getXRC
  rw [h]

theorem xrcLoop_append (eps : K) (guess kfs : List K) (r : K) (js : List Nat) (e : PyErr) : ∀ (is : List Nat) (heap heap' : EnergyHeap K)
    (st st' st'' : SolveState K) (vs : List (XrcValue K)), xrcLoop xe eps guess r kfs is heap st = some (st', .ok (heap', vs)) →
    xrcLoop xe eps guess r kfs js heap' st' = some (st'', .error e) →
    xrcLoop xe eps guess r kfs (is ++ js) heap st = some (st'', .error e) := by
  intro is
  induction is with
  | nil =>
    intro heap heap' st st' st'' vs h h'
    unfold xrcLoop at h
    cases h
    exact h'
  | cons i is ih =>
    intro heap heap' st st' st'' vs h h'
    rw [List.cons_append]
    unfold xrcLoop at h ⊢
    split at h
    · cases h
    · cases h
    · rename_i st1 heap1 v hone
      split at h
      · cases h
      · cases h
      · rename_i st2 heap2 vs2 hrest
        cases h
        rw [ih _ _ _ _ _ _ hrest h']

/-- **C34** When no steady state is found with the barriers of reaction `j` shifted, there are no values at all:
`TypeError`, as `get_tof` is called without coverages. -/
theorem C34_no_steady (eps : K) (j n : Nat) (guess kfs : List K) (r : K) (e : List K × List K) (rest heap1 heap2 : EnergyHeap K)
    (st st1 st2 : SolveState K) (vs : List (XrcValue K)) (e' : List K × List K) (k : K) (ks' : List K) (k' : K)
    (hc : st.coverages = some guess) (ht : xe.tof e guess = .ok r) (hf : xe.kf e = .ok kfs)
    (hj : getXRC xe eps j (e :: rest) st = some (st1, .ok (heap1, vs)))
    (hp : perturb heap1 j eps = .ok (heap2, e')) (hk : kfs[j]? = some k) (hk' : xe.kf e' = .ok ks') (hk'' : ks'[j]? = some k')
    (hs : xe.steady e' guess st1 = some (st2, .none)) :
    getXRC xe eps (j + 1 + n) (e :: rest) st = some (st2, .error .TypeError) := by
  unfold getXRC at hj ⊢
  rw [hc] at hj ⊢
  dsimp only at hj ⊢
  rw [ht, hf] at hj ⊢
  dsimp only at hj ⊢
  rw [show j + 1 + n = j + (1 + n) by omega, List.range_add]
  refine xrcLoop_append xe _ _ _ _ _ _ _ _ _ _ _ _ _ hj ?_
  rw [show 1 + n = n + 1 by omega, List.range_succ_eq_map, List.map_cons, Nat.add_zero]
  unfold xrcLoop xrcOne
  rw [hp]
  dsimp only
  rw [hk, hk']
  dsimp only
  rw [hk'', hs]

end

/-! ## Concrete cases -/

/-- Dissociative adsorption, as a model. -/
def exDissMF : MFOwner ℚ :=
  ⟨[str! "O2_g + 2*_s -> 2O_s"], netOf [str! "O2_g + 2*_s -> 2O_s"], [(str! "*_s", 1)], [(str! "O2_g", 1)], []⟩

/-- A linear solver for one equation. -/
def exSolve : List (List ℚ) → List ℚ → Py (List ℚ)
  | [[a]], [b] => if a = 0 then .error .ZeroDivisionError else .ok [-b / a]
  | _, _ => .error .ValueError

def exAbs : List ℚ → ℚ
  | [a] => |a|
  | _ => 0

/-- A fresh solver. -/
def exFresh : SolveState ℚ := ⟨none, none, false, [], []⟩

/-- The search with guess `[1 / 2]` and two plugins, for dissociative adsorption. -/
def exSearch (tol : ℚ) (maxIter : Int) (hybrid : Option (Option (List ℚ) → Nat → Py (List ℚ))) : Option (SolveState ℚ × Outcome ℚ) :=
  getSteady (mdEnv exDissMF ([1], [4]) ([1], [4]) exSolve exAbs 4 4 tol maxIter hybrid [⟨1, by decide⟩, ⟨2, by decide⟩] false)
    (constrainCoverages exDissMF) 3 (some [1 / 2]) exFresh

-- a search that ends with a root after two accepted steps
example : exSearch (1 / 1000) 5 none = some (⟨some [3587227 / 10761680], some (14348907 / 57906878211200), true,
    [.setup 0 1, .setup 1 1, .step 0 1 1, .step 0 2 1, .step 1 2 1, .finalize 0 1, .finalize 1 1],
    [.coverages [3587227 / 10761680], .error (14348907 / 57906878211200), .guess [1 / 2]]⟩, .returned [3587227 / 10761680]) := by decide +kernel

-- a search that is given up
example : exSearch (1 / 1000) 1 none = some (⟨some [7 / 20], some (27 / 200), false,
    [.setup 0 1, .setup 1 1, .step 0 1 1, .finalize 0 1, .finalize 1 1], []⟩, .none) := by decide +kernel

-- the assumptions of `C31_nonneg_partial` for this model
example : (∀ c c', constrainCoverages exDissMF c = .ok c' → ∀ y ∈ c', 0 ≤ y) ∧
    FromHybrid (mdEnv exDissMF ([1], [4]) ([1], [4]) exSolve exAbs 4 4 (1 / 1000) 5 (some fun _ _ => .ok [1 / 4]) [] false) (fun c => ∀ y ∈ c, 0 ≤ y) := by
  have hr : Ready exDissMF (fun _ => 1) (fun _ => 1) (fun _ => 0) := ⟨by decide +kernel, by decide +kernel, by decide +kernel, by decide +kernel⟩
  refine ⟨fun c c' hc y hy => ?_, ?_⟩
  · exact ((constrain_physical exDissMF _ _ _ hr (fun _ _ => by norm_num) hc).unit y hy).1
  · intro h kept o c hh hc
    cases hh
    cases hc
    decide +kernel

/-- **C31** (refuted) A negative coverage is returned and archived: the steady-state equation of dissociative adsorption has
the root `-1`, and when the hybrid method proposes it, it is accepted as a good guess. -/
theorem C31_negative_refuted : ∃ st', exSearch (1 / 100) 0 (some fun _ _ => .ok [-1]) = some (st', .returned [-1]) ∧
    SolveArchive.coverages [-1] ∈ st'.archived := by
  have h : (exSearch (1 / 100) 0 (some fun _ _ => .ok [-1])).map (fun r => (r.2, decide (SolveArchive.coverages [-1] ∈ r.1.archived))) =
      some (.returned [-1], true) := by decide +kernel
  cases hr : exSearch (1 / 100) 0 (some fun _ _ => .ok [-1]) with
  | none => rw [hr] at h; cases h
  | some r =>
    rw [hr] at h
    obtain ⟨h1, h2⟩ := Prod.mk.inj (Option.some.inj h)
    exact ⟨r.1, by rw [← h1], of_decide_eq_true h2⟩

/-- **C31** Coverages returned for given energies have a residual within tolerance with the rate constants of these
energies, whatever the solver's own are. -/
theorem C31_given_energies {K : Type} [Field K] [LinearOrder K] (o : MFOwner K) (k kOwn : List K × List K)
    (solve : List (List K) → List K → Py (List K)) (norm : List K → K) (m n : Nat) (tol : K) (maxIter : Int)
    (hybrid : Option (Option (List K) → Nat → Py (List K))) (plugins : List SolvePlugin) (singlePt : Bool) (constrain : List K → Py (List K)) (rounds : Nat)
    (c0 : Option (List K)) (st st' : SolveState K) (x : List K)
    (h : getSteady (mdEnv o k kOwn solve norm m n tol maxIter hybrid plugins singlePt) constrain rounds c0 st = some (st', .returned x)) :
    ∃ r, getResidual o k x = .ok r ∧ r ≤ tol :=
  (C31_residual _ constrain rounds c0 st st' x h).1

/-- The hypothesis holds with different energies. -/
example : (getSteady (mdEnv exDissMF ([1], [4]) ([1], [1]) exSolve exAbs 4 4 (1 / 1000) 5 none [] false)
    (constrainCoverages exDissMF) 3 (some [1 / 2]) exFresh).map (·.2) = some (.returned [3587227 / 10761680]) := by
  decide +kernel

/-- **C31** (refuted) The error reported with a good guess may be that of other energies: the search is given energies
with rate constants `1` and `101/100`, the solver's own give `1` and `1`. The guess `1/2` is returned, with the error zero,
although the residual for the energies given is not zero. -/
theorem C31_error_refuted :
    ∃ st', getSteady (mdEnv exDissMF ([1], [101 / 100]) ([1], [1]) exSolve exAbs 4 4 (1 / 100) 5 none [] false)
      (constrainCoverages exDissMF) 3 (some [1 / 2]) exFresh = some (st', .returned [1 / 2]) ∧
    st'.error = some 0 ∧ SolveArchive.error 0 ∈ st'.archived ∧
    ∃ r, getResidual exDissMF ([1], [101 / 100]) [1 / 2] = .ok r ∧ 0 < r :=
  ⟨⟨some [1 / 2], some 0, true, [], [.coverages [1 / 2], .error 0, .guess [1 / 2]]⟩, by decide +kernel, rfl, by decide, _, rfl, by decide +kernel⟩

/-- **C31** (refuted) The guess that led to the coverages is archived, but the solver never gives it: the property is nothing
after every search that succeeded. -/
theorem C31_guess_refuted : ∃ st', exSearch (1 / 1000) 5 none = some (st', .returned [3587227 / 10761680]) ∧
    SolveArchive.guess [1 / 2] ∈ st'.archived ∧ ∀ kept g, goodGuess (K := ℚ) kept ≠ .ok (some g) := by
  refine ⟨⟨some [3587227 / 10761680], some (14348907 / 57906878211200), true,
    [.setup 0 1, .setup 1 1, .step 0 1 1, .step 0 2 1, .step 1 2 1, .finalize 0 1, .finalize 1 1],
    [.coverages [3587227 / 10761680], .error (14348907 / 57906878211200), .guess [1 / 2]]⟩, by decide +kernel, by decide +kernel, ?_⟩
  rintro (_ | _) g h <;> exact nomatch h

/-- **C31** (refuted) With a hybrid method the search need not end: if no guess and no iterate is within tolerance, it goes
on for ever. Here dissociative adsorption with a hybrid method that proposes `1/2` each time, and no iteration allowed. -/
theorem C31_forever_refuted : ∀ n outer st, outerLoop (mdEnv exDissMF ([1], [4]) ([1], [4]) exSolve exAbs 4 4 (1 / 100) 0 (some fun _ _ => .ok [1 / 2]) [] false)
    n outer [1 / 2] st = none := by
  intro n
  induction n with
  | zero => intro _ _; rfl
  | succ n ih =>
    intro outer st
    rw [outerLoop_succ]
    have hr : getResidual exDissMF ([1], [4]) [1 / 2] = .ok (3 / 2) := by decide +kernel
    have hn : (mdNewton (ssProblem exDissMF ([1], [4]) exSolve exAbs) 1 (· / 2) 4 4 [1 / 2]).1.map (fun y => (y.x, y.norm)) =
      ([7 / 20], 27 / 200) :: [([547 / 1640], 2187 / 1344800), ([3587227 / 10761680], 14348907 / 57906878211200),
  ([154418349070987 / 463255047212960], 617673396283947 / 107302619384140899331795980800)] := by decide +kernel
    have hr1 : getResidual exDissMF ([1], [4]) [7 / 20] = .ok (27 / 200) := by decide +kernel
    have hb : (outerBody (mdEnv exDissMF ([1], [4]) ([1], [4]) exSolve exAbs 4 4 (1 / 100) 0 (some fun _ _ => .ok [1 / 2]) [] false) outer [1 / 2] st).2 =
        .again (outer + 1) [1 / 2] := by
      rw [outerBody_iter (r := 3 / 2) _ hr (by norm_num [mdEnv])]
      dsimp only [mdEnv]
      rw [hn]
      unfold innerLoop
      dsimp only
      rw [hr1]
      dsimp only
      rw [if_neg (by simp), if_pos (by simp)]
      rfl
    rw [hb]
    exact ih _ _

/-- **C32** (refuted) `finalize` is given the number of the next guess, and it is called for a good guess without `setup`:
here the first guess fails and the second is good. -/
theorem C32_finalize_refuted : (exSearch (1 / 100) 0 (some fun _ _ => .ok [1 / 3])).map (fun r => (r.2, r.1.calls)) =
    some (.returned [1 / 3], [.setup 0 1, .setup 1 1, .finalize 0 2, .finalize 1 2, .finalize 0 2, .finalize 1 2]) := by decide +kernel

/-- Adsorption and desorption as isomer, as a model. -/
def exIso : MFOwner ℚ :=
  ⟨[str! "HCN_g + *_s -> HCN_s", str! "HCN_s -> HNC_g + *_s"], netOf [str! "HCN_g + *_s -> HCN_s", str! "HCN_s -> HNC_g + *_s"],
    [(str! "*_s", 1)], [(str! "HCN_g", 1), (str! "HNC_g", 0)], []⟩

/-- Rate constants that fall with the barrier (a rational stand-in for the exponential). -/
def exRate (e : List ℚ × List ℚ) : List ℚ × List ℚ := (e.1.map (2 - ·), e.2.map (2 - ·))

def exXrc : XrcEnv ℚ where
  kf e := .ok (exRate e).1
  tof e x := getTofOf exIso (exRate e) x (str! "HNC_g")
  steady e c st := getSteady (mdEnv exIso (exRate e) (exRate ([1, 1], [1, 1])) exSolve exAbs 4 4 (1 / 1000) 5 none [] false)
    (constrainCoverages exIso) 3 (some c) st

-- a calculation that succeeds: the coverages were 1/3 before and are 2/5 afterwards
example : (getXRC exXrc (1 / 2) 2 [([1, 1], [1, 1])] ⟨some [1 / 3], some 0, true, [], [.coverages [1 / 3], .error 0, .guess [1 / 3]]⟩).map
      (fun r => (r.1.coverages, r.1.archived)) =
    some (some [2 / 5], [.coverages [1 / 3], .error 0, .guess [1 / 3], .coverages [1 / 4], .error 0, .guess [1 / 3],
      .coverages [2 / 5], .error 0, .guess [1 / 3]]) := by decide +kernel

example : (getXRC exXrc (1 / 2) 2 [([1, 1], [1, 1])] ⟨some [1 / 3], some 0, true, [], []⟩).map (fun r => r.2.toOption) =
    some (some ([([1, 1], [1, 1]), ([3 / 2, 1], [3 / 2, 1]), ([1, 3 / 2], [1, 3 / 2])], [XrcValue.num (1 / 2), .num (4 / 5)])) := by decide +kernel

-- its search is as `C34_coverages_refuted` assumes
example : ∀ e' g s s' x, exXrc.steady e' g s = some (s', .returned x) → s'.coverages = some x ∧
    ∃ er c, s'.archived = s.archived ++ [.coverages x, .error er, .guess c] :=
  fun e' g s s' x h => (C31_residual (mdEnv exIso (exRate e') (exRate ([1, 1], [1, 1])) exSolve exAbs 4 4 (1 / 1000) 5 none [] false)
    (constrainCoverages exIso) 3 (some g) s s' x h).2

/-- The same model with no iteration allowed. -/
def exXrcNone : XrcEnv ℚ where
  kf e := .ok (exRate e).1
  tof e x := getTofOf exIso (exRate e) x (str! "HNC_g")
  steady e c st := getSteady (mdEnv exIso (exRate e) (exRate ([1, 1], [1, 1])) exSolve exAbs 4 4 (1 / 1000) 0 none [] false)
    (constrainCoverages exIso) 3 (some c) st

example : (getXRC exXrcNone (1 / 2) 2 [([1, 1], [1, 1])] ⟨some [1 / 3], some 0, true, [], []⟩).map (·.2) = some (.error .TypeError) := by
  rw [C34_no_steady exXrcNone (1 / 2) 0 1 [1 / 3] [1, 1] (1 / 3) ([1, 1], [1, 1]) [] [([1, 1], [1, 1])]
    [([1, 1], [1, 1]), ([3 / 2, 1], [3 / 2, 1])] ⟨some [1 / 3], some 0, true, [], []⟩ ⟨some [1 / 3], some 0, true, [], []⟩
    ⟨some [1 / 3], some 0, false, [], []⟩ [] ([3 / 2, 1], [3 / 2, 1]) 1
    [1 / 2, 1] (1 / 2)
    (by decide +kernel) (by decide +kernel) (by decide +kernel) ?_ (by decide +kernel) (by decide +kernel) (by decide +kernel)
    (by decide +kernel) (by decide +kernel)]
  · rfl
  · unfold getXRC; dsimp only
    rw [show exXrcNone.tof ([1, 1], [1, 1]) [1 / 3] = .ok (1 / 3) by decide +kernel]
    rfl
end Verif
