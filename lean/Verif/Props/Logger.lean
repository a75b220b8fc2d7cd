import Verif.Model.Logger
import Verif.Lemmas.Dict
import Verif.Lemmas.Py
import Mathlib.Tactic.Common
/-
Logger levels (C75) and exchange of components (C76).
-/
namespace Verif
open Dict

/-- **C75** Setting a level changes the first handler of the class named and nothing else, and gives back its old level;
an unknown class is a `ValueError` that changes nothing. -/
theorem C75_set (g : Logger) (cls : Str) (level : Int) :
    (∀ pre h post, g.handlers = pre ++ h :: post → h.cls = cls → (∀ x ∈ pre, x.cls ≠ cls) →
      logStep g (.setLevel cls level) = ({ g with handlers := pre ++ ⟨h.cls, level, h.model⟩ :: post }, .ok (some h.level))) ∧
    ((∀ x ∈ g.handlers, x.cls ≠ cls) → logStep g (.setLevel cls level) = (g, .error .ValueError)) := by
  have h1 : ∀ pre h post, h.cls = cls → (∀ x ∈ pre, x.cls ≠ cls) →
      setHandlerLevel cls level (pre ++ h :: post) = .ok (pre ++ ⟨h.cls, level, h.model⟩ :: post, h.level) := by
    intro pre h post hc
    induction pre with
    | nil => intro _; simp [setHandlerLevel, hc]
    | cons x pre ih =>
      intro hx
      simp only [List.cons_append, setHandlerLevel]
      rw [if_neg (hx x (by simp)), ih (fun y hy => hx y (by simp [hy]))]
      rfl
  have h2 : ∀ l : List Handler, (∀ x ∈ l, x.cls ≠ cls) → setHandlerLevel cls level l = .error .ValueError := by
    intro l
    induction l with
    | nil => intro _; rfl
    | cons x l ih =>
      intro hx
      simp only [setHandlerLevel]
      rw [if_neg (hx x (by simp)), ih (fun y hy => hx y (by simp [hy]))]
      rfl
  constructor
  · intro pre h post hg hc hpre
    unfold logStep
    dsimp only
    rw [hg, h1 pre h post hc hpre]
  · intro hx
    unfold logStep
    dsimp only
    rw [h2 _ hx]

/-- The handlers created since the last time they were cleared, by the operations of a program, ignoring levels. -/
def createdModels (k : Nat) : List LogOp → Nat × List Nat
  | [] => (k, [])
  | .create _ _ _ :: ops => let r := createdModels (k + 1) ops; (r.1, if LogOp.clear ∈ ops then r.2 else k :: r.2)
  | _ :: ops => createdModels k ops

theorem setHandlerLevel_same {cls : Str} {level old : Int} {l l' : List Handler} (h : setHandlerLevel cls level l = .ok (l', old)) :
    l'.map (fun x => (x.cls, x.model)) = l.map (fun x => (x.cls, x.model)) := by
  induction l generalizing l' with
  | nil => cases h
  | cons x l ih =>
    simp only [setHandlerLevel] at h
    split at h
    · cases h; simp
    · obtain ⟨r, hr, h⟩ := bind_ok.mp h
      cases h
      simp [ih hr]

/-- **C75** Whatever a program does, the console handlers are those of the models created since the handlers were last
cleared, one each, in order; likewise the file handlers. -/
theorem C75_handlers (ops : List LogOp) (cls : Str) (hc : cls = str! "StreamHandler" ∨ cls = str! "FileHandler") :
    (((logRun .fresh ops).handlers.filter fun h => h.cls = cls).map (·.model)) = (createdModels 0 ops).2 := by
  have key : ∀ (ops : List LogOp) (g : Logger), ((logRun g ops).handlers.filter fun h => h.cls = cls).map (·.model) =
      (if LogOp.clear ∈ ops then [] else (g.handlers.filter fun h => h.cls = cls).map (·.model)) ++ (createdModels g.models ops).2 := by
    intro ops
    induction ops with
    | nil => intro g; simp [logRun, createdModels]
    | cons op ops ih =>
      intro g
      have hstep : logRun g (op :: ops) = logRun (logStep g op).1 ops := rfl
      rw [hstep, ih]
      cases op with
      | create l f c =>
        have h1 : ((logStep g (.create l f c)).1.handlers.filter fun h => h.cls = cls).map (·.model) =
            (g.handlers.filter fun h => h.cls = cls).map (·.model) ++ [g.models] := by
          simp only [logStep, addHandlers, List.filter_append, List.map_append]
          rcases hc with rfl | rfl <;> simp
        have h2 : (logStep g (.create l f c)).1.models = g.models + 1 := rfl
        rw [h1, h2]
        by_cases hcl : LogOp.clear ∈ ops
        · simp [createdModels, hcl]
        · simp [createdModels, hcl]
      | setLevel c level =>
        have h1 : ((logStep g (.setLevel c level)).1.handlers.filter fun h => h.cls = cls).map (·.model) =
            (g.handlers.filter fun h => h.cls = cls).map (·.model) ∧ (logStep g (.setLevel c level)).1.models = g.models := by
          unfold logStep
          dsimp only
          cases hs : setHandlerLevel c level g.handlers with
          | error e => exact ⟨rfl, rfl⟩
          | ok r =>
            refine ⟨?_, rfl⟩
            have hsame := setHandlerLevel_same (l' := r.1) (old := r.2) hs
            have hf : ∀ l : List Handler, (l.filter fun h => h.cls = cls).map (·.model) =
                ((l.map fun x => (x.cls, x.model)).filter fun x => x.1 = cls).map (·.2) := by
              intro l
              rw [List.filter_map, List.map_map]
              rfl
            rw [hf, hf, hsame]
        rw [h1.1, h1.2]
        simp [createdModels]
      | clear =>
        have h2 : (logStep g .clear).1.models = g.models := rfl
        rw [h2]
        by_cases hcl : LogOp.clear ∈ ops
        · simp [createdModels, hcl]
        · simp [createdModels, hcl, logStep]
  have := key ops .fresh
  rw [this]
  by_cases hcl : LogOp.clear ∈ ops <;> simp [Logger.fresh, hcl]

/-- **C75** (partial) With a single model the level set for its console decides what it writes there: a message is written
exactly if it is at least as severe as that level and as the level of the logger. Missing: with several models
(`C75_twice_refuted`, `C75_other_refuted`). -/
theorem C75_single_partial (l f c level msg : Int) :
    ((writes (logRun .fresh [.create l f c, .setLevel (str! "StreamHandler") level]) msg).filter fun h => h.cls = str! "StreamHandler") =
      if l ≤ msg ∧ level ≤ msg then [⟨str! "StreamHandler", level, 0⟩] else [] := by
  have h : logRun .fresh [.create l f c, .setLevel (str! "StreamHandler") level] =
      ⟨l, [⟨str! "FileHandler", f, 0⟩, ⟨str! "StreamHandler", level, 0⟩], 1⟩ := by
    simp [logRun, logStep, addHandlers, Logger.fresh, setHandlerLevel, bind, Except.bind, pure, Except.pure]
  rw [h]
  unfold writes
  by_cases hl : l ≤ msg <;> by_cases hf : f ≤ msg <;> by_cases hc : level ≤ msg <;> simp [hl, hf, hc]

/-- **C75** (refuted) With two models every message of either is written twice to the console and twice to the log file,
as soon as it is severe enough for the levels given. -/
theorem C75_twice_refuted (l1 f1 c1 l2 f2 c2 msg : Int) (hl : l2 ≤ msg) (h1 : f1 ≤ msg) (h2 : c1 ≤ msg) (h3 : f2 ≤ msg) (h4 : c2 ≤ msg) :
    (writes (logRun .fresh [.create l1 f1 c1, .create l2 f2 c2]) msg).map (fun h => (h.cls, h.model)) =
      [(str! "FileHandler", 0), (str! "StreamHandler", 0), (str! "FileHandler", 1), (str! "StreamHandler", 1)] := by
  simp [logRun, logStep, addHandlers, Logger.fresh, writes, hl, h1, h2, h3, h4]

/-- **C75** (refuted) With two models, setting the level of the console changes that of the first model whichever is asked,
and the level of the second model's own console stays. -/
theorem C75_other_refuted (l1 f1 c1 l2 f2 c2 level : Int) :
    logStep (logRun .fresh [.create l1 f1 c1, .create l2 f2 c2]) (.setLevel (str! "StreamHandler") level) =
      (⟨l2, [⟨str! "FileHandler", f1, 0⟩, ⟨str! "StreamHandler", level, 0⟩, ⟨str! "FileHandler", f2, 1⟩, ⟨str! "StreamHandler", c2, 1⟩], 2⟩, .ok (some c1)) := by
  simp [logRun, logStep, addHandlers, Logger.fresh, setHandlerLevel, bind, Except.bind, pure, Except.pure]

example : (createdModels 0 [.create 20 10 20, .clear, .create 20 10 20, .setLevel (str! "FileHandler") 30, .create 20 10 30]).2 = [1, 2] := by decide

example : (logStep (logRun .fresh [.create 20 10 20]) (.setLevel (str! "FileHandler") 30)).2 = .ok (some 10) ∧
    (logStep (logRun .fresh [.create 20 10 20]) (.setLevel (str! "Handler") 30)).2 = .error .ValueError := by decide

/-! ## C76 exchanging components -/

/-- The names of two components of a class are stored apart. -/
theorem mangled_inj {cls a b : Str} (h : mangled cls a = mangled cls b) : a = b := by
  unfold mangled at h
  exact List.append_cancel_left h

/-- **C76** (partial) A solver object becomes the solver of the model, and the other components stay; anything else is a
`TypeError`. Missing: correctors are not checked, plotters cannot be set (`C76_corrector_refuted`, `C76_plotter_refuted`). -/
theorem C76_solver_partial (cls : Str) (inst : Dict Str CompObj) (v : CompObj) :
    (∀ id, v = .solver id → ∃ inst', swapSolver cls inst v = .ok inst' ∧ readComp cls inst' (str! "solver") = some v ∧
      ∀ name, name ≠ str! "solver" → readComp cls inst' name = readComp cls inst name) ∧
    ((∀ id, v ≠ .solver id) → swapSolver cls inst v = .error .TypeError) := by
  constructor
  · rintro id rfl
    refine ⟨_, rfl, ?_, ?_⟩
    · unfold readComp; rw [get?_set, if_pos rfl]
    · intro name hn
      unfold readComp; rw [get?_set, if_neg (fun h => hn (mangled_inj h).symm)]
  · intro h
    cases v <;> first | rfl | exact absurd rfl (h _)

/-- **C76** (refuted) Anything becomes the corrector, a solver too. -/
theorem C76_corrector_refuted (cls : Str) (inst : Dict Str CompObj) (v : CompObj) :
    ∃ inst', swapCorrector cls inst v = .ok inst' ∧ readComp cls inst' (str! "corrector") = some v :=
  ⟨_, rfl, by unfold readComp; rw [get?_set, if_pos rfl]⟩

/-- **C76** (refuted) No plotter can be set: in a module without a name `solver` the call always raises, and in any other
what becomes the plotter does not depend on the argument. -/
theorem C76_plotter_refuted (cls : Str) (globals inst : Dict Str CompObj) (p q : CompObj) :
    (get? globals (str! "solver") = none → swapPlotter cls globals inst p = .error .NameError) ∧
    swapPlotter cls globals inst p = swapPlotter cls globals inst q := by
  have h : ∀ r : CompObj, get? [(str! "plotter", r)] (str! "solver") = none := fun r => by
    rw [get?_eq_none]; simp [keys]
  constructor
  · intro hg; unfold swapPlotter; rw [h, hg]
  · unfold swapPlotter; rw [h, h]

example : ∃ d, swapSolver (str! "MicroKineticModel") [(str! "_MicroKineticModel__corrector", .corrector 1)] (.solver 2) = .ok d ∧
    readComp (str! "MicroKineticModel") d (str! "corrector") = some (.corrector 1) := ⟨_, rfl, by decide⟩

/-! ### The theorems at these cases -/

example := C75_handlers [.create 20 10 20, .clear, .create 20 10 20, .setLevel (str! "FileHandler") 30, .create 20 10 30] (str! "FileHandler") (.inr rfl)

example := C75_twice_refuted 20 10 20 20 10 20 30 (by decide) (by decide) (by decide) (by decide) (by decide)

end Verif
