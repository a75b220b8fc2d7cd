import Verif.Props.Failures3
import Verif.Props.Failures2
import Verif.Props.MkmScript
import Verif.Props.Run
/-
Calls that fail, and the parameters with which the script for micro-kinetic models is delivered.
-/
namespace Verif
open Dict
set_option linter.unusedSectionVars false

/-! ## C72 -/

section
variable {K : Type} [Field K] [LinearOrder K]

/-- **C72** Without any initial coverages `fsolve` (alone or before the search) is a TypeError; nothing of the results or
of the solver changes. -/
theorem C72_nothing (env : RunEnv K) (xrc : Option (Option Str)) (st : RunState K) :
    runModel env (.ok (.fsolve .nothing)) xrc st = some (st, .error .TypeError) ∧
    runModel env (.ok (.coarseFirst .nothing)) xrc st = some (st, .error .TypeError) := ⟨rfl, rfl⟩

/-- **C72** Integration that fails ends the run with its own error, however it is to be continued. -/
theorem C72_integration_failing (env : RunEnv K) (e : PyErr) (h : env.ode = .error e) (xrc : Option (Option Str)) (st : RunState K) :
    ∀ plan ∈ [.fsolve .ode, .coarseFirst .ode, .direct .ode], runModel env (.ok plan) xrc st = some (st, .error e) := by
  intro plan hp
  simp only [List.mem_cons, List.not_mem_nil, or_false] at hp
  rcases hp with rfl | rfl | rfl <;>
  · unfold runModel findCoverages startCoverages
    dsimp only
    rw [h]
    rfl

/-! ## C81 -/

theorem mapM_error_mem {α β : Type} {f : α → Py β} {l : List α} {e : PyErr} (h : l.mapM f = .error e) : ∃ x ∈ l, f x = .error e := by
  induction l with
  | nil => cases h
  | cons a l ih =>
    rw [List.mapM_cons] at h
    cases ha : f a with
    | error x =>
      rw [ha] at h
      cases h
      exact ⟨a, by simp, ha⟩
    | ok y =>
      rw [ha] at h
      cases hl : l.mapM f with
      | error x =>
        have : (l.mapM f >>= fun bs => pure (y :: bs)) = (.error e : Py (List β)) := h
        rw [hl] at this
        cases this
        obtain ⟨x, hx, he⟩ := ih hl
        exact ⟨x, by simp [hx], he⟩
      | ok ys =>
        have : (l.mapM f >>= fun bs => pure (y :: bs)) = (.error e : Py (List β)) := h
        rw [hl] at this
        cases this


/-- **C81** The solver alone can not run either before data are read. -/
theorem C81_solver_unread {K C : Type} [Field K] (s : KmcSettings) (ma sc : Bool) (t : Str) (e : Py Unit) (st : KmcState K C)
    (hd : st.dicts = none) (hc : st.cache = none) :
    st.solverRun s ma sc t e = (.error .AttributeError, st) := by
  unfold KmcState.solverRun
  have hp : st.processes s = (.error .AttributeError, st) := by
    unfold KmcState.processes KmcState.getProcesses
    rw [hc, hd]
  cases h : analysisObjects s st with
  | error x =>
    unfold analysisObjects at h
    split at h
    · cases h
    cases hm : s.analysis.mapM (makeAnalysis st) with
    | ok l => rw [hm] at h; cases h
    | error y =>
      rw [hm] at h
      cases h
      obtain ⟨n, -, hn⟩ := mapM_error_mem hm
      unfold makeAnalysis at hn
      split at hn
      · split at hn
        · cases hn; rfl
        · cases hn
      · split at hn
        · cases hn
        · cases hn; rfl
  | ok an =>
    dsimp only
    rw [hp]

/-! ## C92 -/

/-- **C92** Without pictures the file is emptied and a ValueError is raised, unless the arguments are refused before. -/
theorem C92_none (pil : Bool → Img → PilImg) (a : GifArgs) (x : ℚ) (hd : a.duration = .all x ∨ a.duration = .each [])
    (hs : a.sub = .off ∨ a.sub = .given []) (hdis : a.dispose = none) : writeGif pil [] a = (some [], .error .ValueError) := by
  have h1 : a.duration.list 0 = .ok [] := by
    rcases hd with h | h <;> rw [h] <;> rfl
  have h2 : placeImages a.sub [] = .ok ([], 2) := by
    rcases hs with h | h <;> rw [h] <;> rfl
  have h3 : convertImages pil a.nq [] = .ok (false, []) := by
    unfold convertImages
    dsimp only
    split <;> rfl
  have h4 : prepareGif pil [] a = .ok (false, [], [], [], []) := by
    unfold prepareGif checkImages
    show (a.duration.list 0 >>= _) = _
    rw [h1]
    show (placeImages a.sub [] >>= _) = _
    rw [h2, hdis]
    show (convertImages pil a.nq [] >>= _) = _
    rw [h3]
    rfl
  unfold writeGif
  rw [h4]
  rfl

example : ∃ a : GifArgs, a.duration = .all (1 / 10) ∧ a.sub = .off ∧ a.dispose = none := ⟨⟨.all (1 / 10), .inl true, 0, .off, none⟩, rfl, rfl, rfl⟩

/-! ## C111 -/

/-- **C111** A process without coordinates or without basis sites, or with a basis site that the cell does not have, is an
IndexError. -/
theorem C111_places_failing (basisCoords cell : List (List K)) (colors markers : Dict Str Str) (filename : Str) (p : DrawnProcess K)
    (h : p.groups = [] ∨ p.basis = [] ∨ ∃ b bs, p.basis = b :: bs ∧ basisCoords.length ≤ b) :
    plotProcess basisCoords cell colors markers filename p = .error .IndexError := by
  unfold plotProcess
  cases hg : p.groups with
  | nil => rfl
  | cons g gs =>
    rw [hg] at h
    show (pyIndex p.basis 0 >>= _) = _
    rcases h with h | h | ⟨b, bs, h, hb⟩
    · cases h
    · rw [h]; rfl
    · rw [h]
      show (pyIndex basisCoords b >>= _) = _
      unfold pyIndex
      rw [List.getElem?_eq_none hb]
      rfl

example : plotProcess (K := ℚ) [[0, 0, 0]] [[1, 0, 0], [0, 1, 0], [0, 0, 1]] [] [] (str! "f") ⟨str! "CO_g + *_s -> CO_s", [[[0, 0, 0]]], [], [], [3]⟩ = .error .IndexError :=
  C111_places_failing _ _ _ _ _ _ (.inr (.inr ⟨3, [], rfl, by decide⟩))

/-! ## C104 -/

/-- **C104** (see the last example of C104 for runs that end) As it is delivered the script does not calculate degrees of rate control, whatever product it names, runs the
search after the integration, and leaves a trajectory file whenever the integration has ended. -/
theorem C104_delivered {σ β : Type} (I : Integrator K σ) (start : List K → K → σ) (nads interval : Nat)
    (boltz : Py (List K)) (load : List β → Py (Dict Str (List K))) (data : FileContent β) (fuel : Nat) (env : RunEnv K) (st : RunState K) :
    (∀ xrc, mkmScript mkmDefaults I start nads interval boltz load data fuel { env with xrc := xrc } st
      = mkmScript mkmDefaults I start nads interval boltz load data fuel env st) ∧
    (∀ r c, mkmScript mkmDefaults I start nads interval boltz load data fuel env st = some r → odeInitial nads boltz none = .ok c →
      ∃ f, r.file = some f) ∧
    ∀ r, mkmScript mkmDefaults I start nads interval boltz load data fuel env st = some r → r.result = .ok () →
      ∃ c t g f, odeInitial nads boltz none = .ok c ∧ solveOde I 1 (1 / 1000) interval true fuel (start c 0) = some (.ok (t, g), some f) ∧
        runModel env (runPlan load nads (.seq g) false false data) none st = some (r.state, .ok ()) := by
  have hd : (mkmDefaults : MkmArgs K).calcXRC = false := rfl
  have hx : ∀ (env : RunEnv K) xrc (g : List K),
      runModel { env with xrc := xrc } (runPlan load nads (.seq g) false false data) none st
        = runModel env (runPlan load nads (.seq g) false false data) none st := by
    intro env xrc g
    unfold runModel
    cases runPlan load nads (.seq g) false false data with
    | error e => rfl
    | ok plan => rfl
  refine ⟨fun xrc => ?_, fun r c hr hc => ?_, fun r hr hok => ?_⟩
  · unfold mkmScript
    simp only [hd, Bool.false_eq_true, if_false, hx]
  · unfold mkmScript at hr
    rw [hc] at hr
    dsimp only at hr
    cases hs : solveOde I (mkmDefaults : MkmArgs K).odeEnd (mkmDefaults : MkmArgs K).odeInterval interval (mkmDefaults : MkmArgs K).odeOutput fuel (start c 0) with
    | none => rw [hs] at hr; cases hr
    | some q =>
      obtain ⟨q, f⟩ := q
      have hf : ∃ f', f = some f' := by
        unfold solveOde at hs
        split at hs
        · cases hs
        · rw [show (mkmDefaults : MkmArgs K).odeOutput = true from rfl, if_pos rfl] at hs
          obtain ⟨-, e⟩ := Prod.mk.inj (Option.some.inj hs)
          exact ⟨_, e.symm⟩
      rw [hs] at hr
      cases q with
      | error e => cases hr; exact hf
      | ok q =>
        obtain ⟨y, -, e⟩ := Option.map_eq_some_iff.mp hr
        rw [← e]
        exact hf
  · unfold mkmScript at hr
    cases hc : odeInitial nads boltz none with
    | error e => rw [hc] at hr; cases hr; cases hok
    | ok c =>
      rw [hc] at hr
      dsimp only at hr
      cases hs : solveOde I (mkmDefaults : MkmArgs K).odeEnd (mkmDefaults : MkmArgs K).odeInterval interval (mkmDefaults : MkmArgs K).odeOutput fuel (start c 0) with
      | none => rw [hs] at hr; cases hr
      | some q =>
        obtain ⟨q, f⟩ := q
        have hf : ∃ f', f = some f' := by
          have hs := hs
          unfold solveOde at hs
          split at hs
          · cases hs
          · rw [show (mkmDefaults : MkmArgs K).odeOutput = true from rfl, if_pos rfl] at hs
            obtain ⟨-, e⟩ := Prod.mk.inj (Option.some.inj hs)
            exact ⟨_, e.symm⟩
        obtain ⟨f', rfl⟩ := hf
        have hs' := hs
        rw [hs] at hr
        cases q with
        | error e => cases hr; cases hok
        | ok q =>
          obtain ⟨y, hy, e⟩ := Option.map_eq_some_iff.mp hr
          subst e
          dsimp only at hok
          refine ⟨c, q.1, q.2, f', rfl, hs', ?_⟩
          rw [hd] at hy
          rw [if_neg (by simp)] at hy
          rw [hy, ← hok]

end

/-! ### The theorems at these cases -/

example (s : KmcSettings) := C81_solver_unread (K := ℚ) (C := Nat) s true true [] (.ok ()) KmcState.init rfl rfl

example (pil : Bool → Img → PilImg) := C92_none pil ⟨.all (1 / 10), .inl true, 0, .off, none⟩ (1 / 10) (.inl rfl) (.inl rfl) rfl

end Verif
