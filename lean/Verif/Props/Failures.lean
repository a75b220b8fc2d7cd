import Verif.Props.ContinueRun
import Verif.Props.CreateJobs
import Verif.Props.GatherMap
import Verif.Props.EventText
/- Which errors the scripts for lattice runs end with (C102, C103, C105, C106), and numbers in texts (C108). -/
namespace Verif
open Dict

/-! ## C102 -/

/-- Name of a variable: letters, digits and underscores, not a digit first. -/
def IsName (n : Str) : Prop := (∃ c s, n = c :: s ∧ (isLetter c = true ∨ c = '_')) ∧ ∀ c ∈ n, isWord c = true

theorem isIdent_iff (n : Str) : isIdent n = true ↔ IsName n := by
  have hw : ∀ c, isLetter c = true → isWord c = true := by
    intro c h
    simp [isWord, h]
  cases n with
  | nil =>
    refine ⟨(fun h => nomatch h), ?_⟩
    rintro ⟨⟨_, _, h, _⟩, _⟩
    cases h
  | cons c s =>
    unfold isIdent IsName
    rw [Bool.and_eq_true, Bool.or_eq_true, beq_iff_eq, List.all_eq_true]
    constructor
    · rintro ⟨h1, h2⟩
      refine ⟨⟨c, s, rfl, h1⟩, fun d hd => ?_⟩
      rcases List.mem_cons.mp hd with rfl | hd
      · rcases h1 with h | rfl
        · exact hw _ h
        · decide
      · exact h2 d hd
    · rintro ⟨⟨c', s', he, h⟩, h2⟩
      cases he
      exact ⟨h, fun d hd => h2 d (List.mem_cons_of_mem _ hd)⟩

theorem word_plain (d : Char) (hd : isWord d = true) : isSpace d = false ∧ d ≠ '#' ∧ d ≠ '=' := by
  refine ⟨?_, ?_, ?_⟩
  · by_contra hs
    rw [Bool.not_eq_false] at hs
    simp only [isSpace, Bool.or_eq_true, Bool.and_eq_true, beq_iff_eq, decide_eq_true_eq] at hs
    have hlt : d.toNat ≤ 32 := by
      rcases hs with (rfl | h) | h
      · decide
      · omega
      · omega
    simp only [isWord, isLetter, isDigit, Bool.or_eq_true, Bool.and_eq_true, beq_iff_eq, decide_eq_true_eq, Char.le_def,
      UInt32.le_iff_toNat_le] at hd
    have e : d.toNat = d.val.toNat := rfl
    have l1 : 'a'.val.toNat = 97 := rfl
    have l2 : 'A'.val.toNat = 65 := rfl
    have l3 : '0'.val.toNat = 48 := rfl
    rcases hd with ((h | h) | h) | rfl
    · omega
    · omega
    · omega
    · exact absurd hlt (by decide)
  · rintro rfl; revert hd; decide
  · rintro rfl; revert hd; decide

/-- **C102** The lines that set something: a line with a name, an equal sign and a value sets that name to that value, and no line
sets anything but names to texts. -/
theorem C102_names (l n v : Str) : (execLine l = .ok (some (n, v)) → IsName n ∧ v ≠ [] ∧ '=' ∉ v ∧ Trim v) ∧
    (IsName n → IsValue v → execLine (n ++ str! " = " ++ v ++ ['\n']) = .ok (some (n, v))) := by
  constructor
  · intro h
    unfold execLine at h
    dsimp only at h
    split at h
    · cases h
    · split at h
      · split at h
        · rename_i hc
          cases h
          exact ⟨(isIdent_iff _).mp hc.2.1, hc.2.2.1, fun hm => hc.2.2.2 (mem_strip hm), strip_isTrim _⟩
        · cases h
      · cases h
  · intro hn hv
    have hid := (isIdent_iff n).mpr hn
    obtain ⟨h0, h1, h2, h3, h4⟩ := hv
    obtain ⟨⟨c, s, hcs, hc⟩, hw⟩ := hn
    have hnt : Trim n := ⟨fun d hd => (word_plain d (hw d (List.mem_of_mem_head? hd))).1,
      fun d hd => (word_plain d (hw d (List.mem_of_mem_getLast? hd))).1⟩
    have hb : ∀ c ∈ (['\n'] : Str), isSpace c = true := by decide
    have e0 : (n ++ str! " = " ++ v ++ ['\n']).takeWhile (· ≠ '#') = n ++ str! " = " ++ v ++ ['\n'] := by
      have h := takeWhile_append_all (p := fun c => decide (c ≠ '#')) (a := n ++ str! " = " ++ v ++ ['\n']) (b := []) ?_
      · simpa using h
      intro d hd
      have : d ≠ '#' := by
        rcases List.mem_append.mp hd with hd | hd
        · rcases List.mem_append.mp hd with hd | hd
          · rcases List.mem_append.mp hd with hd | hd
            · exact (word_plain d (hw d hd)).2.1
            · exact (by decide : ∀ d ∈ str! " = ", d ≠ '#') d hd
          · rintro rfl; exact h4 hd
        · exact (by decide : ∀ d ∈ (['\n'] : Str), d ≠ '#') d hd
      simpa using this
    have hwv : strip (' ' :: (v ++ ['\n'])) = v := by
      have := strip_pad (a := [' ']) (s := v) (b := ['\n']) (by decide) hb h1
      simpa using this
    have hwn : strip (n ++ [' ']) = n := by
      have := strip_pad (a := []) (s := n) (b := [' ']) (by simp) (by decide) hnt
      simpa using this
    have e1 : (n ++ str! " = " ++ v ++ ['\n']).takeWhile (· ≠ '=') = n ++ [' '] := by
      have : n ++ str! " = " ++ v ++ ['\n'] = (n ++ [' ']) ++ ('=' :: ' ' :: (v ++ ['\n'])) := by simp
      rw [this, takeWhile_append_all]
      · simp
      · intro d hd
        rcases List.mem_append.mp hd with hd | hd
        · simpa using (word_plain d (hw d hd)).2.2
        · rw [List.mem_singleton] at hd
          subst hd
          decide
    have e2 : (n ++ str! " = " ++ v ++ ['\n']).dropWhile (· ≠ '=') = '=' :: ' ' :: (v ++ ['\n']) := by
      have h := List.takeWhile_append_dropWhile (p := fun c => decide (c ≠ '=')) (l := n ++ str! " = " ++ v ++ ['\n'])
      rw [e1] at h
      have : n ++ str! " = " ++ v ++ ['\n'] = (n ++ [' ']) ++ ('=' :: ' ' :: (v ++ ['\n'])) := by simp
      rw [this] at h ⊢
      exact List.append_cancel_left h
    have hne : strip (n ++ str! " = " ++ v ++ ['\n']) ≠ [] := by
      intro e
      have hs := strip_pad (a := []) (s := n ++ str! " = " ++ v) (b := ['\n']) (by simp) hb ⟨by
          intro d hd
          rw [hcs] at hd
          simp at hd; subst hd
          exact (word_plain _ (hw _ (hcs ▸ List.mem_cons_self))).1, by
          intro d hd; apply h1.2 d
          rw [List.getLast?_append_of_ne_nil _ h0] at hd; exact hd⟩
      rw [List.nil_append] at hs
      rw [hs] at e
      simp at e
    unfold execLine
    dsimp only
    rw [e0, if_neg hne, e1, e2]
    dsimp only
    rw [hwv, hwn, if_pos]
    refine ⟨?_, hid, h0, ?_⟩
    · rw [hcs]
      have := (word_plain c (hw _ (hcs ▸ List.mem_cons_self))).1
      simp [this]
    · intro hm
      rcases List.mem_cons.mp hm with hm | hm
      · exact absurd hm (by decide)
      · rcases List.mem_append.mp hm with hm | hm
        · exact h3 hm
        · exact absurd hm (by decide)

example : IsName (str! "end_1") := ⟨⟨'e', str! "nd_1", rfl, .inl (by decide)⟩, by decide⟩
example : ¬ IsName (str! "1end") := fun h => by
  obtain ⟨⟨c, s, hc, h⟩, _⟩ := h
  cases hc
  revert h
  decide

/-- **C102** What stops the continuation: files of types or times without entries are index errors; without a variable for the times
it is a key error. In all these cases there is no new setup file. -/
theorem C102_failing (content : Str) : continueTypes ([] : List (List Str)) = .error .IndexError ∧
    changeStartTime (some []) content = .error .IndexError ∧ changeStartTime none content = .error .KeyError ∧
    ∀ times e, changeStartTime times content = .error e → times = none ∨ times = some [] := by
  refine ⟨rfl, rfl, rfl, fun times e h => ?_⟩
  cases times with
  | none => exact .inl rfl
  | some ts =>
    cases ts using List.reverseRecOn with
    | nil => exact .inr rfl
    | append_singleton ts t => simp [changeStartTime] at h

/-! ## C103 -/

theorem createJobs_error {K : Type} (base : Option (Dict Str (PVal K))) (templateFile : Option (List (Str × Written K))) (text : K → Str) (species : Str)
    (p : K) (ps : List K) (fs : JobFiles K) (e : PyErr)
    (h : match base with | none => e = .NameError | some l => setPressure l species p = .error e) :
    (createJobs base templateFile (jobs1d text species (p :: ps)) fs).2 = some e := by
  have hnone : get? (without fs.dirs (text p)) (text p) = none := by rw [get?_without]; simp
  cases base with
  | none =>
    subst h
    simp [createJobs, jobs1d, jobOps, runOps, JobOp.run, hnone]
  | some l =>
    have h' : setPressures l [(species, p)] = .error e := by rw [setPressures, h]; rfl
    simp [createJobs, jobs1d, jobOps, runOps, JobOp.run, hnone, h']

/-- **C103** The errors of the script for one gas. Without a template a name is not known. Without definitions of species, or without one of
the gas, it is a key error; if either is not a dictionary, it is a type error. -/
theorem C103_failing {K : Type} (templateFile : Option (List (Str × Written K))) (text : K → Str) (species : Str) (p : K) (ps : List K)
    (fs : JobFiles K) (error : Option (Dict Str (PVal K)) → Option PyErr)
    (herr : error = fun base => (createJobs base templateFile (jobs1d text species (p :: ps)) fs).2) :
    error none = some .NameError ∧ ∀ locs,
    (str! "species_definitions" ∉ keys locs → error (some locs) = some .KeyError) ∧
    (∀ v, get? locs (str! "species_definitions") = some v → (∀ d, v ≠ .dict d) → error (some locs) = some .TypeError) ∧
    ∀ defs, get? locs (str! "species_definitions") = some (.dict defs) →
      (species ∉ keys defs → error (some locs) = some .KeyError) ∧
      ∀ w, get? defs species = some w → (∀ d, w ≠ .dict d) → error (some locs) = some .TypeError := by
  subst herr
  refine ⟨createJobs_error none _ _ _ _ _ _ _ rfl, fun locs => ⟨fun h => createJobs_error (some locs) _ _ _ _ _ _ _ ?_,
    fun v h hv => createJobs_error (some locs) _ _ _ _ _ _ _ ?_, fun defs h => ⟨fun h' => createJobs_error (some locs) _ _ _ _ _ _ _ ?_,
    fun w h' hw => createJobs_error (some locs) _ _ _ _ _ _ _ ?_⟩⟩⟩
  · show setPressure locs species p = _
    unfold setPressure
    rw [get?_eq_none.mpr h]
  · show setPressure locs species p = _
    unfold setPressure
    rw [h]
    cases v <;> first | rfl | exact absurd rfl (hv _)
  · show setPressure locs species p = _
    unfold setPressure
    rw [h]
    dsimp only
    rw [get?_eq_none.mpr h']
  · show setPressure locs species p = _
    unfold setPressure
    rw [h]
    dsimp only
    rw [h']
    cases w <;> first | rfl | exact absurd rfl (hw _)

example : (createJobs (some exTemplate) none (jobs1d (Nat.toDigits 10) (str! "H2_g") [3]) ⟨[], none⟩).2 = some .KeyError :=
  (((C103_failing none (Nat.toDigits 10) (str! "H2_g") 3 [] ⟨[], none⟩ _ rfl).2 exTemplate).2.2 _ rfl).1 (by decide)

/-! ## C105 -/

theorem typeIndex_find {K : Type} (name : Str) (pre post : List (Elem K)) (h : .str name ∉ pre) :
    typeIndex name (pre ++ .str name :: post) = .ok pre.length := by
  induction pre with
  | nil => simp [typeIndex]
  | cons e pre ih =>
    have h2 := ih fun hm => h (List.mem_cons_of_mem _ hm)
    have hne : e ≠ .str name := fun he => h (he ▸ List.mem_cons_self)
    cases e with
    | str s =>
      rw [List.cons_append, typeIndex]
      rw [if_neg (fun he : s = name => hne (he ▸ rfl)), h2]
      rfl
    | num x =>
      rw [List.cons_append, typeIndex]
      · rw [h2]; rfl
      · exact fun _ h => nomatch h
    | nums x =>
      rw [List.cons_append, typeIndex]
      · rw [h2]; rfl
      · exact fun _ h => nomatch h

theorem typeIndex_none {K : Type} (name : Str) (l : List (Elem K)) (h : .str name ∉ l) : typeIndex name l = .error .ValueError := by
  induction l with
  | nil => rfl
  | cons e l ih =>
    have h2 := ih fun hm => h (List.mem_cons_of_mem _ hm)
    have hne : e ≠ .str name := fun he => h (he ▸ List.mem_cons_self)
    cases e with
    | str s =>
      rw [typeIndex]
      rw [if_neg (fun he : s = name => hne (he ▸ rfl)), h2]
      rfl
    | num x =>
      rw [typeIndex]
      · rw [h2]; rfl
      · exact fun _ h => nomatch h
    | nums x =>
      rw [typeIndex]
      · rw [h2]; rfl
      · exact fun _ h => nomatch h

/-- **C105** The coverage of a type, and what stops the script. The place is that of the first entry with the name of the type, whatever
the other entries are; without one it is a value error. Fewer rows than that place, an empty row and an empty text are index errors; numbers and
other texts instead of rows are type errors. -/
theorem C105_failing {K : Type} (env : Vars K) (name : Str) :
    (∀ types, .str name ∉ types → typeCoverage env types name = .error .ValueError) ∧
    ∀ pre post, .str name ∉ pre →
      (∀ e, localVar env (str! "coverages") = .error e → typeCoverage env (pre ++ .str name :: post) name = .error e) ∧
      ∀ rows, localVar env (str! "coverages") = .ok rows →
        (rows.length ≤ pre.length → typeCoverage env (pre ++ .str name :: post) name = .error .IndexError) ∧
        (∀ l x, rows[pre.length]? = some (.nums (l ++ [x])) → typeCoverage env (pre ++ .str name :: post) name = .ok x) ∧
        (rows[pre.length]? = some (.nums []) ∨ rows[pre.length]? = some (.str []) →
          typeCoverage env (pre ++ .str name :: post) name = .error .IndexError) ∧
        ∀ x c s, rows[pre.length]? = some (.num x) ∨ rows[pre.length]? = some (.str (c :: s)) →
          typeCoverage env (pre ++ .str name :: post) name = .error .TypeError := by
  refine ⟨fun types h => ?_, fun pre post h => ⟨fun e he => ?_, fun rows hr => ?_⟩⟩
  · unfold typeCoverage
    rw [typeIndex_none _ _ h]
    rfl
  · unfold typeCoverage
    rw [typeIndex_find _ _ _ h, he]
    rfl
  · have key : typeCoverage env (pre ++ .str name :: post) name = match rows[pre.length]? with
        | some row => lastNumber row
        | none => .error .IndexError := by
      unfold typeCoverage
      rw [typeIndex_find _ _ _ h, hr]
      rfl
    rw [key]
    refine ⟨fun hl => ?_, fun l x hx => ?_, fun hx => ?_, fun x c s hx => ?_⟩
    · rw [List.getElem?_eq_none hl]
    · rw [hx]
      simp [lastNumber]
    · rcases hx with hx | hx <;> rw [hx] <;> rfl
    · rcases hx with hx | hx <;> rw [hx] <;> rfl

example : typeCoverage [(str! "coverages", [.nums [1, 2], .nums [3, (4 : ℚ)]])] [.num 7, .str (str! "C")] (str! "C") = .ok 4 :=
  (((C105_failing (K := ℚ) [(str! "coverages", [.nums [1, 2], .nums [3, 4]])] (str! "C")).2 [.num 7] [] (by decide)).2 _ rfl).2.1 [3] 4 rfl

/-- **C105** Rates: with every key once, the sum is an index error if one of the places is not below the number of keys, and a number otherwise. -/
theorem C105_places_failing {K : Type} [Zero K] [Add K] (indices : List Nat) (rates : Dict Str K) (hk : (keys rates).Nodup) :
    ((∃ i ∈ indices, rates.length ≤ i) → rateSum indices rates = .error .IndexError) ∧
    ((∀ i ∈ indices, i < rates.length) → ∃ x, rateSum indices rates = .ok x) := by
  have hlen : (sortedSet (keys rates)).length = rates.length := by
    have hp : (sortedSet (keys rates)).Perm (keys rates) :=
      (List.perm_ext_iff_of_nodup (sorted_sortedSet _).nodup hk).mpr fun a => mem_sortedSet
    rw [hp.length_eq]
    simp [keys]
  have hget : ∀ r ∈ sortedSet (keys rates), ∃ x, get? rates r = some x := fun r hr =>
    Option.isSome_iff_exists.mp (get?_isSome.mpr (mem_sortedSet.mp hr))
  unfold rateSum
  generalize (0 : K) = a
  constructor
  · intro h
    induction indices generalizing a with
    | nil => obtain ⟨_, h, _⟩ := h; cases h
    | cons i is ih =>
      rw [List.foldlM_cons]
      by_cases hi : rates.length ≤ i
      · rw [List.getElem?_eq_none (by rw [hlen]; exact hi)]
        rfl
      · have hi' : i < (sortedSet (keys rates)).length := by rw [hlen]; omega
        obtain ⟨x, hx⟩ := hget _ (List.getElem_mem hi')
        rw [List.getElem?_eq_getElem hi']
        dsimp only
        rw [hx]
        refine ih (a + x) ?_
        obtain ⟨j, hj, hl⟩ := h
        rcases List.mem_cons.mp hj with rfl | hj
        · exact absurd hl hi
        · exact ⟨j, hj, hl⟩
  · intro h
    induction indices generalizing a with
    | nil => exact ⟨a, rfl⟩
    | cons i is ih =>
      rw [List.foldlM_cons]
      have hi' : i < (sortedSet (keys rates)).length := by rw [hlen]; exact h i List.mem_cons_self
      obtain ⟨x, hx⟩ := hget _ (List.getElem_mem hi')
      rw [List.getElem?_eq_getElem hi']
      dsimp only
      rw [hx]
      exact ih (a + x) fun j hj => h j (List.mem_cons_of_mem _ hj)

example : rateSum [0, 2] [(str! "a", (1 : ℚ)), (str! "b", 2)] = .error .IndexError :=
  (C105_places_failing [0, 2] _ (by decide)).1 ⟨2, by decide, by decide⟩

/-! ## C106 -/

/-- **C106** What stops the maps. Without a directory of an oxygen pressure a name is not known; the first such directory with a name that is not a
number is a value error, and so is a directory in it. A missing file is an error of input, a file without rates a key error, and a file with
too few coverages an index error. -/
theorem C106_failing {K A : Type} [Zero K] [Add K] (toFloat : Str → Option K) (value : A → Py K) :
    (∀ listing : List (Str × List (Str × A)), (∀ x ∈ listing, ¬ str! "pO2-" <+: x.1) → gatherMap toFloat value listing = .error .NameError) ∧
    (∀ pre name (runs : List (Str × A)) post, (∀ x ∈ pre, ¬ str! "pO2-" <+: x.1) → str! "pO2-" <+: name → 'p' ∉ name.drop 4 →
      toFloat (name.drop 4) = none → gatherMap toFloat value (pre ++ (name, runs) :: post) = .error .ValueError) ∧
    mapTof (K := K) none = .error .IOError ∧ mapTof (K := K) (some (.ok none)) = .error .KeyError ∧
    (∀ e, mapTof (K := K) (some (.error e)) = .error e) ∧
    mapCO (K := K) none = .error .IOError ∧ mapO (K := K) none = .error .IOError ∧
    ∀ (file : List (Stmt K)) env rows, execFile file = .ok env → localVar env (str! "coverages") = .ok rows →
      (rows = [] → mapCO (some file) = .error .IndexError) ∧ (rows.length ≤ 1 → mapO (some file) = .error .IndexError) := by
  refine ⟨fun listing h => ?_, fun pre name runs post h hn hd hf => ?_, rfl, rfl, fun _ => rfl, rfl, rfl, fun file env rows he hr => ⟨fun h => ?_, fun h => ?_⟩⟩
  · unfold gatherMap withPrefix
    rw [List.filter_eq_nil_iff.mpr fun x hx => by simpa using h x hx]
    rfl
  · unfold gatherMap withPrefix
    rw [List.filter_append, List.filter_eq_nil_iff.mpr fun x hx => by simpa using h x hx, List.filter_cons_of_pos (by simpa using hn)]
    obtain ⟨t, rfl⟩ := hn
    rw [show (str! "pO2-" ++ t).drop 4 = t from rfl] at hd hf
    have : namePressure toFloat (str! "pO2-") (str! "pO2-" ++ t) = .error .ValueError := by
      unfold namePressure
      rw [show lastPart (str! "pO2-") (str! "pO2-" ++ t) (str! "pO2-" ++ t) = t from lastPart_prefix hd _, hf]
    rw [List.nil_append, mapLoop, this]
    rfl
  · subst h
    unfold mapCO mapCvg
    dsimp only
    rw [he]
    show (localVar env (str! "coverages") >>= _) = _
    rw [hr]
    rfl
  · unfold mapO mapCvg
    dsimp only
    rw [he]
    show (localVar env (str! "coverages") >>= _) = _
    rw [hr]
    show (match rows.reverse[1]? with | some row => lastNumber row | none => .error .IndexError) = _
    rw [List.getElem?_eq_none (by simpa using h)]

example : gatherMap (K := ℚ) exFloat exValue [(str! "data", []), (str! "pO2-x", [])] = .error .ValueError :=
  (C106_failing exFloat exValue).2.1 [(str! "data", [])] (str! "pO2-x") [] [] (by decide) (by decide) (by decide) (by decide +kernel)

/-! ## C108 -/

/-- **C108** The numbers of steps: decimal digits with the value of the number, with a sign before them for negative numbers only. -/
theorem C108_step_numbers (n : Int) : ∃ ds : Str, ds ≠ [] ∧ (∀ c ∈ ds, isDigit c = true) ∧
    (0 ≤ n → intText n = ds ∧ (intOf ds : Int) = n) ∧ (n < 0 → intText n = '-' :: ds ∧ (intOf ds : Int) = -n) := by
  refine ⟨Nat.toDigits 10 n.natAbs, Nat.toDigits_ne_nil, digits_toDigits _, fun h => ?_, fun h => ?_⟩
  · rw [intOf_toDigits]
    exact ⟨if_neg (by omega), by omega⟩
  · rw [intOf_toDigits]
    exact ⟨if_pos h, by omega⟩

example : intText (-12) = str! "-12" ∧ intText 0 = str! "0" := by decide

end Verif
