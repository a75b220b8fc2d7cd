import Verif.Model.CreateJobs
import Verif.Props.DataFile
import Verif.Props.Network
/- C103: series of jobs. -/
namespace Verif
open Dict

section
variable {K : Type}

/-- The same values for all other keys. -/
def SameExcept {V : Type} (d d' : Dict Str V) (k : Str) : Prop := ∀ j, j ≠ k → get? d' j = get? d j

/-- `locs` differs from the template only in pressures of the species `ss`; those in `m` have the pressure of `m`. -/
def Varied (base locs : Dict Str (PVal K)) (ss : List Str) (m : Str → Option K) : Prop :=
  ∃ defs defs', get? base (str! "species_definitions") = some (.dict defs) ∧ get? locs (str! "species_definitions") = some (.dict defs') ∧
    SameExcept base locs (str! "species_definitions") ∧ (∀ s, s ∉ ss → get? defs' s = get? defs s) ∧
    ∀ s ∈ ss, ∃ d d', get? defs s = some (.dict d) ∧ get? defs' s = some (.dict d') ∧ SameExcept d d' (str! "pressure") ∧
      ∀ p, m s = some p → get? d' (str! "pressure") = some (.num p)

/-- A template with definitions of these species. -/
def HasSpecies (base : Dict Str (PVal K)) (ss : List Str) : Prop :=
  ∃ defs, get? base (str! "species_definitions") = some (.dict defs) ∧ ∀ s ∈ ss, ∃ d, get? defs s = some (.dict d)

theorem varied_refl {base : Dict Str (PVal K)} {ss : List Str} (h : HasSpecies base ss) : Varied base base ss fun _ => none := by
  obtain ⟨defs, h1, h2⟩ := h
  refine ⟨defs, defs, h1, h1, fun _ _ => rfl, fun _ _ => rfl, fun s hs => ?_⟩
  obtain ⟨d, hd⟩ := h2 s hs
  exact ⟨d, d, hd, hd, fun _ _ => rfl, fun _ h => by cases h⟩

theorem keys_set_of_get {V : Type} {d : Dict Str V} {k : Str} {v w : V} (h : get? d k = some v) : keys (d.set k w) = keys d := by
  induction d with
  | nil => cases h
  | cons x d ih =>
    obtain ⟨k', v'⟩ := x
    by_cases e : k' = k
    · simp [Dict.set, e, keys]
    · have h' : get? d k = some v := by simpa [get?, e] using h
      simp only [Dict.set, if_neg e, keys, List.map_cons]
      have := ih h'
      simp only [keys] at this
      rw [this]

theorem setPressure_varied {base locs : Dict Str (PVal K)} {ss : List Str} {m : Str → Option K} (h : Varied base locs ss m)
    {s : Str} (hs : s ∈ ss) (p : K) :
    ∃ locs', setPressure locs s p = .ok locs' ∧ keys locs' = keys locs ∧ Varied base locs' ss (fun x => if x = s then some p else m x) ∧
      ∀ k t, get? locs' k = some (.str t) → get? locs k = some (.str t) := by
  obtain ⟨defs, defs', h1, h2, h3, h4, h5⟩ := h
  obtain ⟨d, d', d1, d2, d3, d4⟩ := h5 s hs
  refine ⟨locs.set (str! "species_definitions") (.dict (Dict.set defs' s (.dict (Dict.set d' (str! "pressure") (.num p))))), ?_,
    keys_set_of_get h2, ?_, ?_⟩
  · simp [setPressure, h2, d2]
  · refine ⟨defs, Dict.set defs' s (.dict (Dict.set d' (str! "pressure") (.num p))), h1, by rw [get?_set]; simp, ?_, ?_, ?_⟩
    · intro j hj
      rw [get?_set, if_neg (by simpa using fun e => hj (Eq.symm e))]
      exact h3 j hj
    · intro x hx
      rw [get?_set, if_neg (by rintro rfl; exact hx hs)]
      exact h4 x hx
    · intro x hx
      by_cases e : x = s
      · subst e
        refine ⟨d, Dict.set d' (str! "pressure") (.num p), d1, by rw [get?_set]; simp, ?_, ?_⟩
        · intro j hj
          rw [get?_set, if_neg (by simpa using fun e => hj (Eq.symm e))]
          exact d3 j hj
        · intro q hq
          simp only [if_true] at hq
          cases hq
          rw [get?_set]; simp
      · obtain ⟨c, c', c1, c2, c3, c4⟩ := h5 x hx
        refine ⟨c, c', c1, by rw [get?_set, if_neg (by simpa using fun e' => e (Eq.symm e'))]; exact c2, c3, ?_⟩
        intro q hq
        simp only [if_neg e] at hq
        exact c4 q hq
  · intro k t hk
    rw [get?_set] at hk
    split at hk
    · cases hk
    · exact hk

theorem setPressures_varied {base : Dict Str (PVal K)} {ss : List Str} : ∀ (ps : List (Str × K)) (locs : Dict Str (PVal K)) (m : Str → Option K),
    Varied base locs ss m → (∀ x ∈ ps, x.1 ∈ ss) → (ps.map Prod.fst).Nodup →
    ∃ locs' m', setPressures locs ps = .ok locs' ∧ keys locs' = keys locs ∧ Varied base locs' ss m' ∧ (∀ x ∈ ps, m' x.1 = some x.2) ∧
      (∀ x, x ∉ ps.map Prod.fst → m' x = m x) ∧ ∀ k t, get? locs' k = some (.str t) → get? locs k = some (.str t) := by
  intro ps
  induction ps with
  | nil => intro locs m h _ _; exact ⟨locs, m, rfl, rfl, h, by simp, fun _ _ => rfl, fun _ _ h => h⟩
  | cons x ps ih =>
    intro locs m h hs hn
    obtain ⟨s, p⟩ := x
    obtain ⟨l1, e1, k1, v1, t1⟩ := setPressure_varied h (hs (s, p) (by simp)) p
    rw [List.map_cons, List.nodup_cons] at hn
    obtain ⟨l2, m2, e2, k2, v2, p2, q2, t2⟩ := ih l1 _ v1 (fun x hx => hs x (by simp [hx])) hn.2
    refine ⟨l2, m2, ?_, k2.trans k1, v2, ?_, ?_, fun k t h => t1 k t (t2 k t h)⟩
    · unfold setPressures
      rw [e1]; exact e2
    · intro y hy
      rcases List.mem_cons.mp hy with rfl | hy
      · rw [q2 _ hn.1]; simp
      · exact p2 y hy
    · intro y hy
      simp only [List.map_cons, List.mem_cons, not_or] at hy
      rw [q2 y hy.2, if_neg hy.1]

/-- The values read from a written setup file are those written. -/
theorem read_dict2setup {d : Dict Str (PVal K)} (hn : (keys d).Nodup) (ht : ∀ k t, get? d k = some (.str t) → PlainText t) :
    readSetup (dict2setup d) = .ok d := by
  unfold readSetup dict2setup
  have h1 : (d.map fun x => (x.1, writtenOf x.2)).mapM
      (fun x => do pure (x.1, ← readWritten x.2)) = (.ok d : Py (Dict Str (PVal K))) := by
    rw [List.mapM_map]
    have := mapM_ok (l := d) (f := fun x => (do pure (x.1, ← readWritten (writtenOf x.2)) : Py (Str × PVal K)))
      (g := id) (by
        intro x hx
        obtain ⟨k, v⟩ := x
        cases v with
        | str s =>
          have := readStr_plain (ht k s (get?_of_mem hn hx))
          simp [writtenOf, readWritten, this, bind, Except.bind, pure, Except.pure]
        | num a => rfl
        | list l => rfl
        | dict l => rfl)
    rw [List.map_id] at this
    exact this
  rw [h1]
  show Except.ok (d.foldl (fun (env : Dict Str (PVal K)) x => env.set x.1 x.2) []) = _
  have key : ∀ (d env : Dict Str (PVal K)), (keys (env ++ d)).Nodup → d.foldl (fun (env : Dict Str (PVal K)) x => env.set x.1 x.2) env = env ++ d := by
    intro d
    induction d with
    | nil => intro env _; simp
    | cons x d ih =>
      intro env hn
      have hx : x.1 ∉ keys env := by
        intro hx
        simp only [keys, List.map_append, List.map_cons] at hn hx
        rw [List.nodup_append] at hn
        exact hn.2.2 _ hx _ (by simp) rfl
      have hset : env.set x.1 x.2 = env ++ [x] := by
        clear ih hn
        induction env with
        | nil => rfl
        | cons y env ih =>
          obtain ⟨k, v⟩ := y
          simp only [keys, List.map_cons, List.mem_cons, not_or] at hx
          rw [Dict.set, if_neg (fun e => hx.1 e.symm), ih hx.2]; rfl
      rw [List.foldl_cons, hset, ih _ (by simpa using hn)]
      simp
  rw [key d [] (by simpa using hn)]
  rfl

theorem get?_without {V : Type} (d : Dict Str V) (a b : Str) : get? (without d a) b = if b = a then none else get? d b := by
  induction d with
  | nil => simp [without, get?]
  | cons x d ih =>
    obtain ⟨k, v⟩ := x
    by_cases h : k = a
    · have e : without ((k, v) :: d) a = without d a := by simp [without, h]
      rw [e, ih]
      by_cases e : b = a
      · simp [e]
      · have : ¬ k = b := by rintro rfl; exact e h
        simp [e, get?, this]
    · have e : without ((k, v) :: d) a = (k, v) :: without d a := by simp [without, h]
      rw [e]
      by_cases e : k = b
      · subst e
        simp [get?, h]
      · simp [get?, e, ih]

/-- What a user expects of a job. -/
def JobDone (base : Dict Str (PVal K)) (ss : List Str) (fs : JobFiles K) (j : Job K) : Prop :=
  ∃ file env m, get? fs.dirs j.dir = some (some file) ∧ readSetup file = .ok env ∧ Varied base env ss m ∧ ∀ x ∈ j.pressures, m x.1 = some x.2

theorem runOps_jobs {base : Dict Str (PVal K)} {ss : List Str} (hn : (keys base).Nodup)
    (tf : Option (List (Str × Written K))) (all : List Str) : ∀ (js : List (Job K)) (locs : Dict Str (PVal K)) (m : Str → Option K) (fs : JobFiles K),
    Varied base locs ss m → keys locs = keys base → (∀ k t, get? locs k = some (.str t) → PlainText t) →
    (∀ j ∈ js, (∀ x ∈ j.pressures, x.1 ∈ ss) ∧ (j.pressures.map Prod.fst).Nodup) →
    (js.map Job.dir).Nodup →
    ∃ fs', runOps tf fs (jobOps all (some locs) js) = (fs', none) ∧ fs'.jobDirs = some all ∧ (∀ j ∈ js, JobDone base ss fs' j) ∧
      ∀ d f, d ∉ js.map Job.dir → get? fs.dirs d = some f → get? fs'.dirs d = some f := by
  intro js
  induction js with
  | nil =>
    intro locs m fs _ _ _ _ _
    exact ⟨{ fs with jobDirs := some all }, rfl, rfl, by simp, fun d f _ h => h⟩
  | cons j js ih =>
    intro locs m fs hv hk hp hj hd
    obtain ⟨l', m', e, k', v', p', -, t'⟩ := setPressures_varied j.pressures locs m hv (hj j (by simp)).1 (hj j (by simp)).2
    rw [List.map_cons, List.nodup_cons] at hd
    -- the files after the steps of this job
    have hstep : ∃ fs1 : JobFiles K, (∀ rest, runOps tf fs ((match j.parent with | none => [] | some d => [JobOp.parent d]) ++
          [.rmtree j.dir, .mkdir j.dir, .copy j.dir] ++ (.write j.dir (dict2setup l') :: rest)) = runOps tf fs1 rest) ∧
        get? fs1.dirs j.dir = some (some (dict2setup l')) ∧ ∀ d f, d ≠ j.dir → get? fs.dirs d = some f → get? fs1.dirs d = some f := by
      have base' : ∀ fs0 : JobFiles K, ∃ fs1 : JobFiles K, (∀ rest, runOps tf fs0 ([JobOp.rmtree j.dir, .mkdir j.dir, .copy j.dir] ++ (.write j.dir (dict2setup l') :: rest)) =
          runOps tf fs1 rest) ∧ get? fs1.dirs j.dir = some (some (dict2setup l')) ∧ ∀ d f, d ≠ j.dir → get? fs0.dirs d = some f → get? fs1.dirs d = some f := by
        intro fs0
        have hnone : get? (without fs0.dirs j.dir) j.dir = none := by rw [get?_without]; simp
        refine ⟨⟨(((without fs0.dirs j.dir).set j.dir none).set j.dir tf).set j.dir (some (dict2setup l')), fs0.jobDirs⟩, ?_, ?_, ?_⟩
        · intro rest
          simp only [List.cons_append, List.nil_append, runOps, JobOp.run, hnone]
        · rw [get?_set]; simp
        · intro d f hd' hf
          have hne : ¬ (j.dir = d) := fun e => hd' e.symm
          simp only [get?_set, get?_without, if_neg hne, if_neg hd', hf]
      cases hpj : j.parent with
      | none =>
        obtain ⟨fs1, a, b, c⟩ := base' fs
        exact ⟨fs1, a, b, c⟩
      | some d0 =>
        cases hg : get? fs.dirs d0 with
        | some f0 =>
          obtain ⟨fs1, a, b, c⟩ := base' fs
          refine ⟨fs1, fun rest => ?_, b, c⟩
          rw [← a rest]
          simp [runOps, JobOp.run, hg]
        | none =>
          obtain ⟨fs1, a, b, c⟩ := base' { fs with dirs := fs.dirs.set d0 none }
          refine ⟨fs1, fun rest => ?_, b, fun d f hd' hf => c d f hd' ?_⟩
          · rw [← a rest]
            simp [runOps, JobOp.run, hg]
          · rw [get?_set]
            split
            · rename_i he
              have he : d0 = d := by simpa using he
              subst he
              rw [hg] at hf; cases hf
            · exact hf
    obtain ⟨fs1, s1, s2, s3⟩ := hstep
    have hp' : ∀ k t, get? l' k = some (.str t) → PlainText t := fun k t h => hp k t (t' k t h)
    obtain ⟨fs2, r1, r2, r3, r4⟩ := ih l' m' fs1 v' (k'.trans hk) hp' (fun i hi => hj i (by simp [hi])) hd.2
    refine ⟨fs2, ?_, r2, ?_, ?_⟩
    · unfold jobOps
      dsimp only
      rw [e]
      dsimp only
      exact (s1 _).trans r1
    · intro i hi
      rcases List.mem_cons.mp hi with rfl | hi
      · exact ⟨dict2setup l', l', m', r4 _ _ hd.1 s2, read_dict2setup (by rw [k', hk]; exact hn) hp', v', p'⟩
      · exact r3 i hi
    · intro d f hd' hf
      simp only [List.map_cons, List.mem_cons, not_or] at hd'
      exact r4 d f hd'.2 (s3 d f hd'.1 hf)

/-- C103: whatever earlier or interrupted runs have left, the script makes for every job a directory whose setup file gives the
values of the template with the pressures of this job, lists the jobs in order, and leaves the files of other directories. -/
theorem C103_jobs_partial (base : Dict Str (PVal K)) (ss : List Str) (hs : HasSpecies base ss) (hn : (keys base).Nodup)
    (hstr : ∀ k t, get? base k = some (.str t) → PlainText t) (templateFile : Option (List (Str × Written K))) (jobs : List (Job K))
    (hj : ∀ j ∈ jobs, (∀ x ∈ j.pressures, x.1 ∈ ss) ∧ (j.pressures.map Prod.fst).Nodup) (hd : (jobs.map Job.dir).Nodup)
    (fs : JobFiles K) :
    ∃ fs', createJobs (some base) templateFile jobs fs = (fs', none) ∧ fs'.jobDirs = some (jobs.map Job.dir) ∧
      (∀ j ∈ jobs, JobDone base ss fs' j) ∧ ∀ d f, d ∉ jobs.map Job.dir → get? fs.dirs d = some f → get? fs'.dirs d = some f :=
  runOps_jobs hn templateFile _ jobs base _ fs (varied_refl hs) rfl hstr hj hd

/-- C103: the series over the pressures of one species. -/
theorem C103_one_partial (base : Dict Str (PVal K)) (species : Str) (hs : HasSpecies base [species]) (hn : (keys base).Nodup)
    (hstr : ∀ k t, get? base k = some (.str t) → PlainText t) (templateFile : Option (List (Str × Written K))) (text : K → Str)
    (ps : List K) (hp : (ps.map text).Nodup) (fs : JobFiles K) :
    ∃ fs', createJobs (some base) templateFile (jobs1d text species ps) fs = (fs', none) ∧ fs'.jobDirs = some (ps.map text) ∧
      ∀ p ∈ ps, ∃ file env m, get? fs'.dirs (text p) = some (some file) ∧ readSetup file = .ok env ∧ Varied base env [species] m ∧ m species = some p := by
  have hd : (jobs1d text species ps).map Job.dir = ps.map text := by simp [jobs1d]
  obtain ⟨fs', h1, h2, h3, -⟩ := C103_jobs_partial base [species] hs hn hstr templateFile (jobs1d text species ps) (by
    intro j hj
    obtain ⟨p, -, rfl⟩ := List.mem_map.mp hj
    exact ⟨by simp, by simp⟩) (by rw [hd]; exact hp) fs
  refine ⟨fs', h1, by rw [h2, hd], fun p hp' => ?_⟩
  obtain ⟨file, env, m, a, b, c, d⟩ := h3 _ (List.mem_map.mpr ⟨p, hp', rfl⟩)
  exact ⟨file, env, m, a, b, c, d (species, p) (by simp)⟩

theorem slash_inj {a b c d : Str} (ha : '/' ∉ a) (hc : '/' ∉ c) (h : a ++ '/' :: b = c ++ '/' :: d) : a = c ∧ b = d := by
  induction a generalizing c with
  | nil =>
    cases c with
    | nil => exact ⟨rfl, by simpa using h⟩
    | cons x c => injection h with h1 h2; exact absurd (by simp [← h1]) hc
  | cons y a ih =>
    cases c with
    | nil => injection h with h1 h2; exact absurd (by simp [h1]) ha
    | cons x c =>
      injection h with h1 h2
      obtain ⟨e1, e2⟩ := ih (fun h => ha (by simp [h])) (fun h => hc (by simp [h])) h2
      exact ⟨by rw [h1, e1], e2⟩

/-- C103: the series over the pressures of two species. -/
theorem C103_two_partial (base : Dict Str (PVal K)) (hs : HasSpecies base [str! "CO_g", str! "O2_g"]) (hn : (keys base).Nodup)
    (hstr : ∀ k t, get? base k = some (.str t) → PlainText t) (templateFile : Option (List (Str × Written K))) (text : K → Str)
    (htext : ∀ p, '/' ∉ text p) (pO2s pCOs : List K) (hO : (pO2s.map text).Nodup) (hC : (pCOs.map text).Nodup) (fs : JobFiles K) :
    ∃ fs', createJobs (some base) templateFile (jobs2d text pO2s pCOs) fs = (fs', none) ∧
      ∀ pO2 ∈ pO2s, ∀ pCO ∈ pCOs, ∃ file env m, get? fs'.dirs (str! "pO2-" ++ text pO2 ++ str! "/pCO-" ++ text pCO) = some (some file) ∧
        readSetup file = .ok env ∧ Varied base env [str! "CO_g", str! "O2_g"] m ∧ m (str! "CO_g") = some pCO ∧ m (str! "O2_g") = some pO2 := by
  have inj : ∀ a b c d : K, str! "pO2-" ++ text a ++ str! "/pCO-" ++ text b = str! "pO2-" ++ text c ++ str! "/pCO-" ++ text d →
      text a = text c ∧ text b = text d := by
    intro a b c d h
    have h' : (str! "pO2-" ++ text a) ++ '/' :: (str! "pCO-" ++ text b) = (str! "pO2-" ++ text c) ++ '/' :: (str! "pCO-" ++ text d) := by
      simpa using h
    have no : ∀ x : K, '/' ∉ str! "pO2-" ++ text x := by
      intro x hx
      rcases List.mem_append.mp hx with hx | hx
      · exact absurd hx (by decide)
      · exact htext x hx
    obtain ⟨e1, e2⟩ := slash_inj (no a) (no c) h'
    exact ⟨List.append_cancel_left e1, List.append_cancel_left e2⟩
  have hd : ((jobs2d text pO2s pCOs).map Job.dir).Nodup := by
    have hrow : ∀ a : K, ((pCOs.map fun pCO => (⟨some (str! "pO2-" ++ text a), str! "pO2-" ++ text a ++ str! "/pCO-" ++ text pCO,
        [(str! "CO_g", pCO), (str! "O2_g", a)]⟩ : Job K)).map Job.dir).Nodup := by
      intro a
      rw [List.map_map]
      unfold List.Nodup at hC ⊢
      rw [List.pairwise_map] at hC ⊢
      exact hC.imp fun hne e => hne (inj _ _ _ _ e).2
    clear hs
    induction pO2s with
    | nil => exact List.nodup_nil
    | cons a l ih =>
      rw [List.map_cons, List.nodup_cons] at hO
      unfold jobs2d at ih ⊢
      rw [List.flatMap_cons, List.map_append, List.nodup_append]
      refine ⟨hrow a, ih hO.2, ?_⟩
      intro x hx y hy e
      subst e
      obtain ⟨j, hj, rfl⟩ := List.mem_map.mp hx
      obtain ⟨p, hp, rfl⟩ := List.mem_map.mp hj
      obtain ⟨j', hj', e⟩ := List.mem_map.mp hy
      obtain ⟨c, hc, hj'⟩ := List.mem_flatMap.mp hj'
      obtain ⟨q, hq, rfl⟩ := List.mem_map.mp hj'
      have := (inj _ _ _ _ e).1
      exact hO.1 (this ▸ List.mem_map.mpr ⟨c, hc, rfl⟩)
  obtain ⟨fs', h1, -, h3, -⟩ := C103_jobs_partial base [str! "CO_g", str! "O2_g"] hs hn hstr templateFile (jobs2d text pO2s pCOs) (by
    intro j hj
    obtain ⟨a, ha, hj⟩ := List.mem_flatMap.mp hj
    obtain ⟨p, hp, rfl⟩ := List.mem_map.mp hj
    exact ⟨by simp, (by decide : [str! "CO_g", str! "O2_g"].Nodup)⟩) hd fs
  refine ⟨fs', h1, fun a ha b hb => ?_⟩
  obtain ⟨file, env, m, a', b', c', d'⟩ := h3 _ (List.mem_flatMap.mpr ⟨a, ha, List.mem_map.mpr ⟨b, hb, rfl⟩⟩)
  exact ⟨file, env, m, a', b', c', d' (str! "CO_g", b) (by simp), d' (str! "O2_g", a) (by simp)⟩

/-- C103: a template without the species, without definitions, or no template: the first directory is left with the copied
files, and the list of jobs is not written. -/
theorem C103_no_species (base : Option (Dict Str (PVal K))) (templateFile : Option (List (Str × Written K))) (text : K → Str) (species : Str)
    (h : ∀ l p, base = some l → ∃ e, setPressure l species p = .error e) (p : K) (ps : List K) (fs : JobFiles K) :
    ∃ fs' e, createJobs base templateFile (jobs1d text species (p :: ps)) fs = (fs', some e) ∧ fs'.jobDirs = fs.jobDirs ∧
      get? fs'.dirs (text p) = some templateFile := by
  have hnone : get? (without fs.dirs (text p)) (text p) = none := by rw [get?_without]; simp
  cases base with
  | none =>
    refine ⟨⟨((without fs.dirs (text p)).set (text p) none).set (text p) templateFile, fs.jobDirs⟩, .NameError, ?_, rfl, by
      rw [get?_set]; simp⟩
    simp [createJobs, jobs1d, jobOps, runOps, JobOp.run, hnone]
  | some l =>
    obtain ⟨e, he⟩ := h l p rfl
    refine ⟨⟨((without fs.dirs (text p)).set (text p) none).set (text p) templateFile, fs.jobDirs⟩, e, ?_, rfl, by
      rw [get?_set]; simp⟩
    have : setPressures l [(species, p)] = .error e := by simp [setPressures, he, bind, Except.bind]
    simp [createJobs, jobs1d, jobOps, runOps, JobOp.run, hnone, this]

end

/-- A template with two gases. -/
def exTemplate : Dict Str (PVal Nat) :=
  [(str! "lattice", .str (str! "fcc")), (str! "temperature", .num 500),
   (str! "species_definitions", .dict [(str! "CO_g", .dict [(str! "pressure", .num 1)]), (str! "O2_g", .dict [(str! "pressure", .num 2)]), (str! "CO_s", .str (str! "top"))]),
   (str! "rxn_expressions", .list [.str (str! "CO_g + *_s -> CO_s")])]

theorem exTemplate_ok : HasSpecies exTemplate [str! "CO_g", str! "O2_g"] ∧ (keys exTemplate).Nodup ∧
    ∀ k t, get? exTemplate k = some (.str t) → PlainText t := by
  refine ⟨⟨_, rfl, ?_⟩, by decide, ?_⟩
  · intro s hs
    simp only [List.mem_cons, List.not_mem_nil, or_false] at hs
    rcases hs with rfl | rfl
    · exact ⟨_, rfl⟩
    · exact ⟨_, rfl⟩
  · intro k t h
    have hm := mem_of_get? h
    simp only [exTemplate, List.mem_cons, Prod.mk.injEq, List.not_mem_nil, or_false] at hm
    rcases hm with ⟨-, h⟩ | ⟨-, h⟩ | ⟨-, h⟩ | ⟨-, h⟩
    · injection h with h; subst h; exact (by unfold PlainText; decide)
    · cases h
    · cases h
    · cases h

example (fs : JobFiles Nat) : ∃ fs', createJobs (some exTemplate) none (jobs2d (Nat.toDigits 10) [1, 2] [3, 10]) fs = (fs', none) ∧
    ∃ file env m, get? fs'.dirs (str! "pO2-2/pCO-10") = some (some file) ∧ readSetup file = .ok env ∧
      Varied exTemplate env [str! "CO_g", str! "O2_g"] m ∧ m (str! "CO_g") = some 10 ∧ m (str! "O2_g") = some 2 := by
  obtain ⟨fs', h1, h2⟩ := C103_two_partial exTemplate exTemplate_ok.1 exTemplate_ok.2.1 exTemplate_ok.2.2 none (Nat.toDigits 10)
    (fun p h => absurd (digits_toDigits p _ h) (by decide)) [1, 2] [3, 10] (by decide) (by decide) fs
  exact ⟨fs', h1, h2 2 (by decide) 10 (by decide)⟩

example (fs : JobFiles Nat) : ∃ fs', createJobs (some exTemplate) none (jobs1d (Nat.toDigits 10) (str! "CO_g") [3, 10]) fs = (fs', none) := by
  have h : HasSpecies exTemplate [str! "CO_g"] := by
    obtain ⟨defs, h1, h2⟩ := exTemplate_ok.1
    exact ⟨defs, h1, fun s hs => h2 s (by simp at hs; simp [hs])⟩
  obtain ⟨fs', h1, -⟩ := C103_one_partial exTemplate (str! "CO_g") h exTemplate_ok.2.1 exTemplate_ok.2.2 none (Nat.toDigits 10) [3, 10] (by decide) fs
  exact ⟨fs', h1⟩

/-- `C103_no_species`: a species without definition. -/
example (p : Nat) : setPressure exTemplate (str! "H2_g") p = .error .KeyError := rfl

/-- C103 fails for texts with quotes in the template: the setup file of the job cannot be read. -/
theorem C103_quote_refuted : ∃ base : Dict Str (PVal Nat), HasSpecies base [str! "CO_g"] ∧ (keys base).Nodup ∧
    ∃ fs' file, createJobs (some base) none (jobs1d (Nat.toDigits 10) (str! "CO_g") [3]) ⟨[], none⟩ = (fs', none) ∧
      get? fs'.dirs (str! "3") = some (some file) ∧ readSetup file = .error .SyntaxError := by
  refine ⟨[(str! "surface_name", .str (str! "Pt's")), (str! "species_definitions", .dict [(str! "CO_g", .dict [(str! "pressure", .num 1)])])],
    ⟨_, rfl, ?_⟩, by decide, _, _, rfl, rfl, rfl⟩
  intro s hs
  simp only [List.mem_cons, List.not_mem_nil, or_false] at hs
  subst hs
  exact ⟨_, rfl⟩

/-- C103 fails when two pressures have the same text: only the last job is left, and it is listed twice. -/
theorem C103_same_text_refuted : ∃ text : Nat → Str,
    ∃ fs', createJobs (some exTemplate) none (jobs1d text (str! "CO_g") [3, 4]) ⟨[], none⟩ = (fs', none) ∧
      fs'.jobDirs = some [str! "0.1", str! "0.1"] ∧ keys fs'.dirs = [str! "0.1"] ∧
      ∃ file env defs d, get? fs'.dirs (text 3) = some (some file) ∧ readSetup file = .ok env ∧
        get? env (str! "species_definitions") = some (.dict defs) ∧ get? defs (str! "CO_g") = some (.dict d) ∧
        get? d (str! "pressure") = some (.num 4) :=
  ⟨fun _ => str! "0.1", _, rfl, rfl, rfl, _, _, _, _, rfl, rfl, rfl, rfl, rfl⟩

/-! ### The theorems at these cases -/

example (fs : JobFiles Nat) := C103_jobs_partial exTemplate [str! "CO_g", str! "O2_g"] exTemplate_ok.1 exTemplate_ok.2.1 exTemplate_ok.2.2 none
  [⟨none, str! "a", [(str! "CO_g", 3)]⟩, ⟨some (str! "c"), str! "b", [(str! "CO_g", 3), (str! "O2_g", 10)]⟩] (by decide) (by decide) fs

example (fs : JobFiles Nat) := C103_no_species (some exTemplate) none (Nat.toDigits 10) (str! "H2_g") (by rintro l p ⟨⟩; exact ⟨_, rfl⟩) 3 [10] fs

end Verif
