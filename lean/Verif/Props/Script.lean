import Verif.Model.Script
import Verif.Lemmas.Chars
import Verif.Lemmas.Dict
/- C95 Scripts of simulation objects. -/
namespace Verif
open Dict

/-- The value of a variable of a script. -/
inductive ScriptVal (O : Type)
  | obj (o : O)
  | objs (l : List O)
  deriving DecidableEq

/-- A variable that holds an object. -/
def ScriptVal.asObj {O : Type} : Option (ScriptVal O) → Py O
  | none => .error .NameError
  | some (.obj o) => .ok o
  | some (.objs _) => .error .TypeError

/-- What Python does with a statement of a script. -/
def execScript {O : Type} (env : Dict Str (ScriptVal O)) : List (ScriptStmt O) → Py (Dict Str (ScriptVal O))
  | [] => .ok env
  | .importAll _ :: l => execScript env l
  | .define n o :: l => execScript (set env n (.obj o)) l
  | .gather n vs :: l => do
    let os ← vs.mapM fun v => ScriptVal.asObj (get? env v)
    execScript (set env n (.objs os)) l

theorem processVar_inj {i j : Nat} (h : processVar i = processVar j) : i = j := by
  have := List.append_cancel_left h
  rw [← intOf_toDigits i, ← intOf_toDigits j, this]

theorem execScript_defines {O : Type} (ps : List O) (k : Nat) (env : Dict Str (ScriptVal O)) (rest : List (ScriptStmt O)) :
    ∃ env', execScript env ((ps.zipIdx k).map (fun p => .define (processVar p.2) p.1) ++ rest) = execScript env' rest ∧
      (∀ (i : Nat) o, ps[i]? = some o → get? env' (processVar (k + i)) = some (.obj o)) ∧
      ∀ name, (∀ i, i < ps.length → name ≠ processVar (k + i)) → get? env' name = get? env name := by
  induction ps generalizing k env with
  | nil => exact ⟨env, rfl, fun i o h => by simp at h, fun _ _ => rfl⟩
  | cons p ps ih =>
    obtain ⟨env', h1, h2, h3⟩ := ih (k + 1) (set env (processVar k) (.obj p))
    refine ⟨env', ?_, ?_, ?_⟩
    · rw [← h1]
      rfl
    · intro i o ho
      cases i with
      | zero =>
        obtain rfl : p = o := by simpa using ho
        rw [h3, Nat.add_zero, get?_set, if_pos rfl]
        intro i _ he
        have := processVar_inj he
        omega
      | succ i =>
        rw [show k + (i + 1) = k + 1 + i by omega]
        exact h2 i o (by simpa using ho)
    · intro name hn
      rw [h3, get?_set, if_neg]
      · intro he
        exact hn 0 (by simp) (by simpa using he.symm)
      · intro i hi
        have := hn (i + 1) (by simpa using hi)
        rwa [show k + (i + 1) = k + 1 + i by omega] at this

theorem mapM_pointwise {α β : Type} {f : α → Py β} {l : List α} {k : List β} (hl : k.length = l.length)
    (h : ∀ i (h1 : i < l.length) (h2 : i < k.length), f l[i] = .ok k[i]) : l.mapM f = .ok k := by
  induction l generalizing k with
  | nil => cases k with
    | nil => rfl
    | cons => simp at hl
  | cons a l ih =>
    cases k with
    | nil => simp at hl
    | cons b k =>
      rw [List.mapM_cons, show f a = .ok b from h 0 (by simp) (by simp),
        ih (by simpa using hl) fun i h1 h2 => h (i + 1) (by simpa using h1) (by simpa using h2)]
      rfl

/-- **C95** Running the script of a list of processes, in whatever surroundings, succeeds and makes the variable `processes`
the same list in the same order. -/
theorem C95_processes {O : Type} (ps : List O) (name : Option Str) (files : Dict Str (List (ScriptStmt O))) (env : Dict Str (ScriptVal O)) :
    ∃ env', execScript env (scriptProcesses ps name files).1 = .ok env' ∧ get? env' (str! "processes") = some (.objs ps) := by
  have hc : (scriptProcesses ps name files).1 = .importAll (str! "KMCLib") :: processStmts ps := by
    unfold scriptProcesses scripted
    cases name <;> rfl
  obtain ⟨env', h1, h2, -⟩ := execScript_defines ps 0 env [.gather (str! "processes") ((List.range ps.length).map processVar)]
  have hm : ((List.range ps.length).map processVar).mapM (fun v => ScriptVal.asObj (get? env' v)) = .ok ps := by
    refine mapM_pointwise (by simp) fun i hi hi' => ?_
    have hv := h2 i ps[i] (List.getElem?_eq_getElem hi')
    rw [Nat.zero_add] at hv
    simp only [List.getElem_map, List.getElem_range, hv]
    rfl
  refine ⟨set env' (str! "processes") (.objs ps), ?_, ?_⟩
  · rw [hc]
    show execScript env (processStmts ps) = _
    unfold processStmts
    rw [h1]
    show (List.mapM _ _ >>= _) = _
    rw [hm]
    rfl
  · rw [get?_set, if_pos rfl]

/-- **C95** The file has the name with `auto_` in front and holds what is returned; no other file changes, and without a
name none does. The same holds for the scripts of single objects, which define the object. -/
theorem C95_files {O : Type} (ps : List O) (v : Str) (o : O) (n : Str) (files : Dict Str (List (ScriptStmt O))) (hn : n ≠ []) :
    (∀ f, get? (scriptProcesses ps (some n) files).2 f =
      if f = str! "auto_" ++ n then some (scriptProcesses ps (some n) files).1 else get? files f) ∧
    (∀ f, get? (scriptObject v o (some n) files).2 f =
      if f = str! "auto_" ++ n then some (scriptObject v o (some n) files).1 else get? files f) ∧
    (∀ env, ∃ env', execScript env (scriptObject v o (some n) files).1 = .ok env' ∧ get? env' v = some (.obj o)) ∧
    (∀ m, m = none ∨ m = some [] → (scriptProcesses ps m files).2 = files ∧ (scriptObject v o m files).2 = files ∧
      (scriptProcesses ps m files).1 = (scriptProcesses ps (some n) files).1 ∧ (scriptObject v o m files).1 = (scriptObject v o (some n) files).1) := by
  refine ⟨?_, ?_, ?_, ?_⟩
  · intro f
    unfold scriptProcesses scripted
    dsimp only
    rw [if_neg hn, get?_set]
    simp only [eq_comm]
  · intro f
    unfold scriptObject scripted
    dsimp only
    rw [if_neg hn, get?_set]
    simp only [eq_comm]
  · intro env
    exact ⟨_, rfl, by rw [get?_set, if_pos rfl]⟩
  · rintro m (rfl | rfl) <;> exact ⟨rfl, rfl, rfl, rfl⟩

/-- Eleven processes, so that a number of two digits occurs. -/
example : (scriptProcesses (List.range 11) (some (str! "processes.py")) []).1.length = 13 ∧
    (execScript [] (scriptProcesses (List.range 11) (some (str! "processes.py")) []).1).isOk ∧
    keys (scriptProcesses (List.range 11) (some (str! "processes.py")) []).2 = [str! "auto_processes.py"] := by decide +kernel

end Verif
