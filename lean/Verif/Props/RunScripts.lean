import Verif.Model.RunScripts
import Verif.Props.MkmScript
/- C114: the scripts that run a model in the current directory. -/
namespace Verif

/-! ## The clean-up -/

theorem linesOf_append_self (name : Str) (lines : List Str) : ∀ d : Folder,
    linesOf name (appendLines name lines d) = some ((linesOf name d).getD [] ++ lines)
  | [] => by simp [appendLines, linesOf]
  | f :: d => by
    unfold appendLines
    by_cases h : f.1 = name
    · rw [if_pos h]
      simp [linesOf, h]
    · rw [if_neg h]
      have ih := linesOf_append_self name lines d
      unfold linesOf at ih ⊢
      rw [List.find?_cons_of_neg (by simpa using h), List.find?_cons_of_neg (by simpa using h)]
      exact ih

theorem linesOf_clean (name : Str) : ∀ d : Folder, linesOf name (mkmClean d) = if isOldOutput name then none else linesOf name d
  | [] => by simp [mkmClean, linesOf]
  | f :: d => by
    have ih := linesOf_clean name d
    unfold mkmClean linesOf at ih ⊢
    by_cases hf : f.1 = name
    · by_cases ho : isOldOutput name = true
      · rw [if_pos ho] at ih ⊢
        rw [List.filter_cons_of_neg (by simp [hf, ho])]
        exact ih
      · rw [if_neg ho]
        rw [List.filter_cons_of_pos (by simpa [hf] using ho), List.find?_cons_of_pos (by simpa using hf), List.find?_cons_of_pos (by simpa using hf)]
    · by_cases ho : isOldOutput f.1 = true
      · rw [List.filter_cons_of_neg (by simp [ho]), List.find?_cons_of_neg (by simpa using hf)]
        exact ih
      · rw [List.filter_cons_of_pos (by simpa using ho), List.find?_cons_of_neg (by simpa using hf), List.find?_cons_of_neg (by simpa using hf)]
        exact ih

/-- **C114** The script for micro-kinetic models starts with a clean directory: the log and files with `auto_` at the head of
their names are gone, every other file is as it was, and the log of the run has the lines of this run only. -/
theorem C114_clean (d : Folder) (lines : List Str) :
    (∀ name, linesOf name (mkmClean d) = if name = str! "out.log" ∨ str! "auto_" <+: name then none else linesOf name d) ∧
    linesOf (str! "out.log") (appendLines (str! "out.log") lines (mkmClean d)) = some lines := by
  constructor
  · intro name
    rw [linesOf_clean]
    have : isOldOutput name = true ↔ name = str! "out.log" ∨ str! "auto_" <+: name := by
      unfold isOldOutput
      rw [Bool.or_eq_true, beq_iff_eq, List.isPrefixOf_iff_prefix]
    by_cases h : isOldOutput name = true
    · rw [if_pos h, if_pos (this.mp h)]
    · rw [if_neg h, if_neg (fun h' => h (this.mpr h'))]
  · rw [linesOf_append_self, linesOf_clean]
    rfl

example : mkmClean [(str! "out.log", [str! "old"]), (str! "a.mkm", []), (str! "auto_coverages.py", [])] = [(str! "a.mkm", [])] := by decide

/-- **C114** (refuted) The script for lattice models removes nothing: old output is still there and the lines of the run come
after those of the run before. -/
theorem C114_kmc_clean_refuted (d : Folder) (old lines : List Str) (h : linesOf (str! "out.log") d = some old) :
    (∀ name, linesOf name (kmcClean d) = linesOf name d) ∧
    linesOf (str! "out.log") (appendLines (str! "out.log") lines (kmcClean d)) = some (old ++ lines) := by
  refine ⟨fun _ => rfl, ?_⟩
  rw [linesOf_append_self]
  show some ((linesOf _ d).getD [] ++ lines) = _
  rw [h]
  rfl

example : linesOf (str! "out.log") [(str! "out.log", [str! "old"])] = some [str! "old"] ∧
    appendLines (str! "out.log") [str! "new"] (kmcClean [(str! "out.log", [str! "old"])]) = [(str! "out.log", [str! "old", str! "new"])] := by decide

/-! ## The setup file -/

/-- **C114** (partial) The clean-up does not change which setup file is taken, provided no setup file has `auto_` at the head of
its name. -/
theorem C114_setup_partial (d : Folder) (h : ∀ f ∈ d, isSetupName f.1 = true → ¬ str! "auto_" <+: f.1) :
    setupName ((mkmClean d).map (·.1)) = setupName (d.map (·.1)) := by
  unfold setupName
  have key : ((mkmClean d).map (·.1)).filter isSetupName = (d.map (·.1)).filter isSetupName := by
    unfold mkmClean
    rw [List.filter_map, List.filter_map, List.filter_filter]
    congr 1
    apply List.filter_congr
    intro f hf
    by_cases hs : isSetupName f.1 = true
    · have h1 : ¬ str! "auto_" <+: f.1 := h f hf hs
      have h2 : f.1 ≠ str! "out.log" := by
        intro he
        rw [he] at hs
        revert hs
        decide
      have h3 : isOldOutput f.1 = false := by
        unfold isOldOutput
        rw [Bool.or_eq_false_iff]
        refine ⟨by simpa using h2, ?_⟩
        rw [← Bool.not_eq_true, List.isPrefixOf_iff_prefix]
        exact h1
      simp [hs, h3]
    · simp [hs]
  rw [key]

example : (∀ f ∈ ([(str! "out.log", []), (str! "a.mkm", []), (str! "auto_tof.py", [])] : Folder), isSetupName f.1 = true → ¬ str! "auto_" <+: f.1) ∧
    setupName ((mkmClean [(str! "out.log", []), (str! "a.mkm", []), (str! "auto_tof.py", [])]).map (·.1)) = str! "a.mkm" := by decide

/-- **C114** (refuted) A setup file with `auto_` at the head of its name is removed before it is read. -/
theorem C114_setup_refuted : ∃ d : Folder, setupName (d.map (·.1)) = str! "auto_CO.mkm" ∧
    linesOf (str! "auto_CO.mkm") d ≠ none ∧ linesOf (str! "auto_CO.mkm") (mkmClean d) = none ∧
    ∀ f ∈ mkmClean d, f.1 ≠ setupName ((mkmClean d).map (·.1)) :=
  ⟨[(str! "auto_CO.mkm", [str! "T = 500"])], by decide, by decide, by decide, by decide⟩

/-! ## Errors -/

/-- The first error of the stages. -/
def Stages.FailsWith (s : Stages) (e : PyErr) : Prop :=
  s.make = .error e ∨ s.make = .ok () ∧ (s.parse = .error e ∨ s.parse = .ok () ∧ s.run = .error e)

/-- **C114** The script for micro-kinetic models: the first error of any stage comes out and is in the log of the master, and only
there; without an error the time used is in the log of the master. -/
theorem C114_errors (master : Bool) (s : Stages) :
    (∀ e, s.FailsWith e → (mkmReport master s).result = .error e ∧ (mkmReport master s).caught = (if master then [e] else []) ∧
      (mkmReport master s).time = false) ∧
    (s.make = .ok () ∧ s.parse = .ok () ∧ s.run = .ok () → (mkmReport master s).result = .ok () ∧ (mkmReport master s).caught = [] ∧
      (mkmReport master s).time = master) := by
  obtain ⟨a, b, c⟩ := s
  constructor
  · rintro e (h | ⟨h, h' | ⟨h', h''⟩⟩) <;> dsimp only at * <;> subst_vars <;> exact ⟨rfl, rfl, rfl⟩
  · rintro ⟨h, h', h''⟩
    dsimp only at *
    subst_vars
    exact ⟨rfl, rfl, rfl⟩

/-- **C114** (partial) The script for lattice models does the same for errors of `run`. -/
theorem C114_kmc_errors_partial (master : Bool) (s : Stages) (hm : s.make = .ok ()) (hp : s.parse = .ok ()) :
    kmcReport master s = mkmReport master s := by
  obtain ⟨a, b, c⟩ := s
  dsimp only at hm hp
  subst hm hp
  cases c <;> rfl

/-- **C114** (refuted) Errors of making the model and of reading the data come out of the script for lattice models but are not
in its log. -/
theorem C114_kmc_errors_refuted (s : Stages) (e : PyErr) (h : s.make = .error e ∨ s.make = .ok () ∧ s.parse = .error e) :
    (kmcReport true s).result = .error e ∧ (kmcReport true s).caught = [] ∧ (mkmReport true s).caught = [e] := by
  obtain ⟨a, b, c⟩ := s
  rcases h with h | ⟨h, h'⟩ <;> dsimp only at * <;> subst_vars <;> exact ⟨rfl, rfl, rfl⟩

example : (⟨.ok (), .error .IOError, .ok ()⟩ : Stages).FailsWith .IOError := .inr ⟨rfl, .inl rfl⟩
example : kmcReport true ⟨.ok (), .ok (), .error .KeyError⟩ = ⟨[.KeyError], false, .error .KeyError⟩ := rfl

/-! ## Several processes -/

/-- Once a process is running, none is before its clean-up, and the old output is gone; what is written stays. -/
structure CleanInv (n : Nat) (old : List Str) (w : CleanWorld) : Prop where
  early : (∃ r, r < n ∧ w.pc r = .start) → w.written = [] ∧ ∀ r, r < n → w.pc r ≠ .running
  kept : ∀ x ∈ w.written, x ∈ w.files
  gone : (∃ r, r < n ∧ w.pc r ≠ .start) → ∀ x ∈ w.files, x ∈ w.written ∨ x ∈ old ∧ isOldOutput x = false
  others : ∀ x ∈ old, isOldOutput x = false → x ∈ w.files
  only : ∀ x ∈ w.files, x ∈ w.written ∨ x ∈ old

theorem cleanStep_inv {n : Nat} {old : List Str} {w w' : CleanWorld} {r : Nat} {name : Str} (hr : r < n) (inv : CleanInv n old w)
    (h : cleanStep n w r name = some w') : CleanInv n old w' := by
  unfold cleanStep at h
  cases hpc : w.pc r with
  | start =>
    rw [hpc] at h
    cases Option.some.inj h
    obtain ⟨e1, e2⟩ := inv.early ⟨r, hr, hpc⟩
    refine ⟨fun _ => ⟨e1, fun q hq => ?_⟩, ?_, ?_, ?_, ?_⟩
    · show (if q = r then CleanPc.waiting else w.pc q) ≠ .running
      by_cases hqr : q = r
      · rw [if_pos hqr]; exact (fun h => nomatch h)
      · rw [if_neg hqr]; exact e2 q hq
    · rw [e1]; simp
    · intro _ x hx
      obtain ⟨h1, h2⟩ := List.mem_filter.mp hx
      have h2 : isOldOutput x = false := by simpa using h2
      exact (inv.only x h1).imp id (fun h => ⟨h, h2⟩)
    · intro x hx ho
      exact List.mem_filter.mpr ⟨inv.others x hx ho, by simpa using ho⟩
    · intro x hx
      exact inv.only x (List.mem_filter.mp hx).1
  | waiting =>
    rw [hpc] at h
    dsimp only at h
    split at h
    · rename_i hall
      cases Option.some.inj h
      have none_start : ¬ ∃ q, q < n ∧ (if q = r then CleanPc.running else w.pc q) = .start := by
        rintro ⟨q, hq, h⟩
        by_cases hqr : q = r
        · rw [if_pos hqr] at h; cases h
        · rw [if_neg hqr] at h
          have := List.all_eq_true.mp hall q (List.mem_range.mpr hq)
          rw [h] at this
          simp at this
      refine ⟨fun h => absurd h none_start, inv.kept, fun _ => inv.gone ⟨r, hr, by rw [hpc]; exact (fun h => nomatch h)⟩, inv.others, inv.only⟩
    · cases h
  | running =>
    rw [hpc] at h
    cases Option.some.inj h
    refine ⟨fun hs => ?_, ?_, ?_, ?_, ?_⟩
    · exact absurd hpc ((inv.early hs).2 r hr)
    · intro x hx
      rcases List.mem_append.mp hx with h | h
      · exact List.mem_append.mpr (.inl (inv.kept x h))
      · exact List.mem_append.mpr (.inr h)
    · intro hq x hx
      rcases List.mem_append.mp hx with h | h
      · exact (inv.gone hq x h).imp (fun h => List.mem_append.mpr (.inl h)) id
      · exact .inl (List.mem_append.mpr (.inr h))
    · intro x hx ho
      exact List.mem_append.mpr (.inl (inv.others x hx ho))
    · intro x hx
      rcases List.mem_append.mp hx with h | h
      · exact (inv.only x h).imp (fun h => List.mem_append.mpr (.inl h)) id
      · exact .inl (List.mem_append.mpr (.inr h))

theorem cleanRun_inv {n : Nat} {old : List Str} : ∀ (l : List (Nat × Str)) (w : CleanWorld), CleanInv n old w → CleanInv n old (cleanRun n w l)
  | [], _, inv => inv
  | (r, name) :: l, w, inv => by
    unfold cleanRun
    by_cases hr : r < n
    · rw [if_pos hr]
      apply cleanRun_inv l
      cases h : cleanStep n w r name with
      | none => exact inv
      | some w' => exact cleanStep_inv hr inv h
    · rw [if_neg hr]
      exact cleanRun_inv l w inv

/-- **C114** With several processes, in any order of their steps: no clean-up removes a file written by this run, files that are
not output are never removed, and once any process runs the old output is gone. -/
theorem C114_processes (n : Nat) (files : List Str) (l : List (Nat × Str)) :
    let w := cleanRun n (cleanInit files) l
    (∀ x ∈ w.written, x ∈ w.files) ∧
    (∀ x ∈ files, ¬ (x = str! "out.log" ∨ str! "auto_" <+: x) → x ∈ w.files) ∧
    ((∃ r, r < n ∧ w.pc r = .running) → ∀ x ∈ w.files, (x = str! "out.log" ∨ str! "auto_" <+: x) → x ∈ w.written) := by
  have spec : ∀ x, isOldOutput x = true ↔ x = str! "out.log" ∨ str! "auto_" <+: x := by
    intro x
    unfold isOldOutput
    rw [Bool.or_eq_true, beq_iff_eq, List.isPrefixOf_iff_prefix]
  have start : CleanInv n files (cleanInit files) :=
    ⟨fun _ => ⟨rfl, (fun _ _ h => nomatch h)⟩, (fun x hx => nomatch hx), (fun ⟨_, _, h⟩ => absurd rfl h), (fun x hx _ => hx), fun x hx => .inr hx⟩
  have inv := cleanRun_inv l _ start
  refine ⟨inv.kept, fun x hx ho => inv.others x hx ?_, fun ⟨r, hr, hrun⟩ x hx ho => ?_⟩
  · rw [← Bool.not_eq_true, spec]
    exact ho
  · rcases inv.gone ⟨r, hr, by rw [hrun]; exact (fun h => nomatch h)⟩ x hx with h | ⟨-, h⟩
    · exact h
    · rw [(spec x).mpr ho] at h
      cases h

/-- Two processes: the second cleans up last, the first waits for it. -/
example : (cleanRun 2 (cleanInit [str! "auto_tof.py", str! "a.mkm"]) [(0, []), (0, []), (1, []), (0, []), (0, str! "auto_tof.py")]).files =
    [str! "a.mkm", str! "auto_tof.py"] ∧
    (cleanRun 2 (cleanInit [str! "auto_tof.py", str! "a.mkm"]) [(0, []), (0, []), (1, []), (0, []), (0, str! "auto_tof.py")]).pc 0 = .running := by
  decide

end Verif
