import Verif.Props.Failures5
import Verif.Props.MeanField
import Verif.Props.Plugin
import Verif.Props.RunScripts
import Verif.Props.PlotProc
import Verif.Props.PlotCoverages
import Verif.Props.Gif
/-
With which error calls fail: lattice processes, Boltzmann coverages, plugins, scripts, plots and sub-rectangles.
-/
namespace Verif
open Dict
set_option linter.unusedSectionVars false

/-! ## C51 -/

section
variable {K C : Type} [Field K]

theorem processes_first {o : KmcOwner K} {d : ProcDict C} {e : PyErr} (hd : processRates o d = .error e) (rest : List (ProcDict C)) :
    ∀ (ds : List (ProcDict C)) (m : List Str), (getProcesses o ds m).1.isOk → (getProcesses o (ds ++ d :: rest) m).1 = .error e := by
  intro ds
  induction ds with
  | nil =>
    intro m _
    simp only [List.nil_append]
    unfold getProcesses getSingleProcess
    rw [hd]
  | cons a ds ih =>
    intro m h
    rw [List.cons_append]
    unfold getProcesses at h ⊢
    cases hs : getSingleProcess o a m with
    | mk r m1 =>
      rw [hs] at h
      cases r with
      | error x => exact nomatch h
      | ok ps =>
        dsimp only at h ⊢
        have := ih m1 (by
          cases hx : getProcesses o ds m1 with
          | mk y m2 =>
            rw [hx] at h
            cases y with
            | error z => exact nomatch h
            | ok z => rfl)
        cases hx : getProcesses o (ds ++ d :: rest) m1 with
        | mk y m2 =>
          rw [hx] at this
          dsimp only at this
          subst this
          rfl

/-- **C51** The error of the first definition that is not taken: an unknown reaction or an unknown element type is a SetupError, elements
before and after in lists of different kinds are a TypeError, and what the rates raise comes out as it is. -/
theorem C51_errors (o : KmcOwner K) (ds rest : List (ProcDict C)) (d : ProcDict C) (m : List Str) (h : (getProcesses o ds m).1.isOk) :
    (d.reaction ∉ o.exprs → (getProcesses o (ds ++ d :: rest) m).1 = .error .SetupError) ∧
    (d.reaction ∈ o.exprs → d.mixed = true → (getProcesses o (ds ++ d :: rest) m).1 = .error .TypeError) ∧
    (d.reaction ∈ o.exprs → d.mixed = false → (∃ e ∈ d.before ++ d.after, e ≠ ['*'] ∧ e ∉ o.elementTypes) →
      (getProcesses o (ds ++ d :: rest) m).1 = .error .SetupError) ∧
    (d.reaction ∈ o.exprs → d.mixed = false → (∀ e ∈ d.before ++ d.after, e = ['*'] ∨ e ∈ o.elementTypes) →
      ∀ x, o.rates d.reaction = .error x → (getProcesses o (ds ++ d :: rest) m).1 = .error x) := by
  have key : ((d.before ++ d.after).any (fun e => e != ['*'] && !o.elementTypes.contains e) = true) ↔
      ∃ e ∈ d.before ++ d.after, e ≠ ['*'] ∧ e ∉ o.elementTypes := by
    simp only [List.any_eq_true, Bool.and_eq_true, bne_iff_ne, Bool.not_eq_true', ← Bool.not_eq_true, List.contains_iff_mem]
  refine ⟨fun h1 => ?_, fun h1 h2 => ?_, fun h1 h2 h3 => ?_, fun h1 h2 h3 x hx => ?_⟩ <;> apply processes_first _ _ _ _ h <;> unfold processRates
  · rw [if_pos h1]
  · rw [if_neg (by simpa using h1), if_pos h2]
  · rw [if_neg (by simpa using h1), if_neg (by simp [h2]), if_pos (key.mpr h3)]
  · rw [if_neg (by simpa using h1), if_neg (by simp [h2]), if_neg, hx]
    rw [key]
    rintro ⟨e, he, a, b⟩
    exact (h3 e he).elim a b

end

example : (getProcesses exKmc [exKmcAds false false, ⟨str! "CO_g + *_s -> CO_s", [7], [str! "V", str! "O"], [str! "C", str! "O"], false, [0], false, false⟩] []).1
    = .error .SetupError :=
  (C51_errors exKmc [exKmcAds false false] [] _ [] rfl).2.2.1 (by decide) rfl ⟨str! "O", by decide, by decide, by decide⟩

/-! ## C62 -/

/-- **C62** At zero temperature the weights are a ZeroDivisionError; at every other temperature, also below zero, there are coverages or an
adsorbate has no energy. -/
theorem C62_temperature (n : Network) (E : Dict Str ℝ) (T : ℝ) (b : Bool) (hne : n.ads ≠ []) (hE : ∀ x ∈ n.ads ++ n.sites, ∃ e, get? E x = some e) :
    (T = 0 → boltzmannCoverages n (some E) T b = .error .ZeroDivisionError) ∧ (T ≠ 0 → ∃ l, boltzmannCoverages n (some E) T b = .ok l) := by
  have hB := kBeV_pos
  constructor
  · rintro rfl
    unfold boltzmannCoverages
    dsimp only
    cases ha : n.ads with
    | nil => exact absurd ha hne
    | cons a as =>
      obtain ⟨e, he⟩ := hE a (by simp [ha])
      have : boltzmannWeight E 0 a = .error .ZeroDivisionError := by
        unfold boltzmannWeight
        rw [dictGet_ok.mpr he]
        simp only [bind, Except.bind, mul_zero, if_true]
      have hm : ∀ l, (a :: l).mapM (boltzmannWeight E 0) = .error .ZeroDivisionError := by
        intro l
        rw [List.mapM_cons, this]
        rfl
      cases b <;> simp only [if_true, Bool.false_eq_true, if_false, List.cons_append] <;> rw [hm] <;> rfl
  · intro hT
    have hk : kBeV * T ≠ 0 := mul_ne_zero hB.ne' hT
    have hm : ∀ l : List Str, (∀ x ∈ l, x ∈ n.ads ++ n.sites) → ∃ r, l.mapM (boltzmannWeight E T) = .ok r := by
      intro l hl
      apply mapM_ok_exists
      intro x hx
      obtain ⟨e, he⟩ := hE x (hl x hx)
      unfold boltzmannWeight
      rw [dictGet_ok.mpr he]
      simp only [bind, Except.bind]
      rw [if_neg hk]
      exact ⟨_, rfl⟩
    obtain ⟨r1, h1⟩ := hm n.ads (fun x hx => by simp [hx])
    obtain ⟨r2, h2⟩ := hm (n.ads ++ n.sites) (fun x hx => hx)
    unfold boltzmannCoverages
    dsimp only
    cases b
    · simp only [Bool.false_eq_true, if_false]
      rw [h1]
      exact ⟨_, rfl⟩
    · simp only [if_true]
      rw [h1, h2]
      exact ⟨_, rfl⟩

example : exNet.ads ≠ [] ∧ ∀ x ∈ exNet.ads ++ exNet.sites, ∃ e, get? ([(str! "CO_s", -1), (str! "O_s", -2), (str! "*_s", 0)] : Dict Str ℝ) x = some e := by
  refine ⟨by decide, ?_⟩
  rw [show exNet.ads ++ exNet.sites = [str! "CO_s", str! "O_s", str! "*_s"] by decide]
  intro x hx
  simp only [List.mem_cons, List.not_mem_nil, or_false] at hx
  rcases hx with rfl | rfl | rfl
  · exact ⟨-1, rfl⟩
  · exact ⟨-2, rfl⟩
  · exact ⟨0, rfl⟩

/-! ## C73 -/

/-- **C73** A class without a method that the solver calls is an AttributeError, one without an interval too. -/
theorem C73_absent (m : Mro) (name : Str) (h : ∀ c ∈ m, get? c name = none) (counter : Int) :
    callMethod m name = .error .AttributeError ∧ (name = str! "interval" → stepAnalysed m counter = .error .AttributeError) := by
  have e : classLookup m name = none := by
    unfold classLookup
    rw [List.findSome?_eq_none_iff]
    exact h
  constructor
  · unfold callMethod; rw [e]
  · rintro rfl
    unfold stepAnalysed; rw [e]

/-- **C73** An interval that is a truth value and gets in through a base that is no plugin: `True` analyses every step, `False` fails at the first. -/
theorem C73_boolean_interval (base : Dict Str ClassAttr) (m : Mro) (b : Bool) (counter : Int) (h : get? base (str! "interval") = some (.bool b)) :
    stepAnalysed (base :: m) counter = if b then .ok true else .error .ZeroDivisionError := by
  have e : classLookup (base :: m) (str! "interval") = some (.bool b) := by
    unfold classLookup
    rw [List.findSome?_cons, h]
  unfold stepAnalysed
  rw [e]

example : callMethod [exCounter] (str! "finalize") = .error .AttributeError := (C73_absent [exCounter] _ (by decide) 0).1

/-! ## C114 -/

/-- **C114** In the script for lattice models a model that cannot be made or read is not reported as a run: no time is written, by no process. -/
theorem C114_kmc_time (master : Bool) (s : Stages) (e : PyErr) (h : s.FailsWith e) :
    (kmcReport master s).time = false ∧ (kmcReport master s).result = .error e := by
  obtain ⟨a, b, c⟩ := s
  rcases h with h | ⟨h, h' | ⟨h', h''⟩⟩ <;> dsimp only at * <;> subst_vars <;> exact ⟨rfl, rfl⟩

example : (⟨.ok (), .error .IOError, .ok ()⟩ : Stages).FailsWith .IOError ∧ (kmcReport true ⟨.ok (), .error .IOError, .ok ()⟩).time = false :=
  ⟨.inr ⟨rfl, .inl rfl⟩, (C114_kmc_time true _ .IOError (.inr ⟨rfl, .inl rfl⟩)).1⟩

/-! ## C100 -/

/-- **C100** Where another number of times is accepted, the frequencies of the same file with this number of times are a ValueError. -/
theorem C100_numbers {K : Type} [Field K] (production : Str) (file file' : List (Stmt K)) (env env' : Vars K) (rows times times' procs : List (Elem K))
    (he : execFile file = .ok env) (hr : get? env (str! "tofs") = some rows) (ht : get? env (str! "times") = some times)
    (hp : get? env (str! "processes") = some procs)
    (he' : execFile file' = .ok env') (hr' : get? env' (str! "tofs") = some rows) (ht' : get? env' (str! "times") = some times')
    (hp' : get? env' (str! "processes") = some procs) (r : List (Elem K) × List K) (h : plotTof production file = .ok r)
    (hl : times'.length ≠ times.length) : plotTof production file' = .error .ValueError := by
  have lv : ∀ env v l, get? env v = some l → localVar (K := K) env v = .ok l := by
    intro env v l h
    unfold localVar
    rw [h]
  unfold plotTof at h ⊢
  rw [he] at h
  rw [he']
  obtain ⟨x, g1, h⟩ := bind_ok.mp (show (localVar env (str! "tofs") >>= _) = _ from h)
  rw [lv _ _ _ hr] at g1; cases g1
  obtain ⟨x, g1, h⟩ := bind_ok.mp h
  rw [lv _ _ _ ht] at g1; cases g1
  obtain ⟨x, g1, h⟩ := bind_ok.mp h
  rw [lv _ _ _ hp] at g1; cases g1
  obtain ⟨labels, g2, h⟩ := bind_ok.mp h
  obtain ⟨q, g3, h⟩ := bind_ok.mp h
  obtain ⟨tofs, g4, h⟩ := bind_ok.mp h
  show (localVar env' (str! "tofs") >>= _) = _
  rw [lv _ _ _ hr']
  show (localVar env' (str! "times") >>= _) = _
  rw [lv _ _ _ ht']
  show (localVar env' (str! "processes") >>= _) = _
  rw [lv _ _ _ hp']
  show (procs.mapM labelOf >>= _) = _
  rw [g2]
  show (tofIndices production 0 labels >>= _) = _
  rw [g3]
  show (rows.mapM (tofOfRow q.1 q.2) >>= _) = _
  rw [g4]
  split at h
  · rename_i e
    show (if _ then _ else _) = _
    rw [if_neg (by omega)]
  · cases h

example : plotTof (K := ℚ) (str! "CO2_g") [.assign (str! "tofs") [.nums [1]], .assign (str! "times") [], .assign (str! "processes") []] = .error .ValueError :=
  C100_numbers _ [.assign (str! "tofs") [.nums [1]], .assign (str! "times") [.num 3], .assign (str! "processes") []] _ _ _
    [.nums [1]] [.num 3] [] [] rfl rfl rfl rfl rfl rfl rfl rfl ([.num 3], [0]) rfl (by simp)

/-! ## C111 -/

/-- **C111** Elements after the process that are not as many as its coordinates are a ValueError, once the state before has been drawn. -/
theorem C111_after_failing {K : Type} [Field K] (basisCoords cell : List (List K)) (colors markers : Dict Str Str) (filename : Str) (p : DrawnProcess K)
    (r : List (Str × Str × List (Dot K))) (h : plotProcess basisCoords cell colors markers filename { p with after := p.before } = .ok r)
    (hl : p.after.length ≠ p.before.length) : plotProcess basisCoords cell colors markers filename p = .error .ValueError := by
  unfold plotProcess at h ⊢
  obtain ⟨g, h1, h⟩ := bind_ok.mp h
  obtain ⟨b, h2, h⟩ := bind_ok.mp h
  obtain ⟨v, h3, h⟩ := bind_ok.mp h
  dsimp only at h1 h2 h
  split at h
  · cases h
  rename_i hg
  obtain ⟨mv, h4, h⟩ := bind_ok.mp h
  obtain ⟨d, h5, h⟩ := bind_ok.mp h
  simp only [bind, Except.bind, h1, h2, h3]
  rw [if_neg hg, h4]
  dsimp only
  rw [h5]
  dsimp only
  rw [if_pos (by omega)]

example : plotProcess (K := ℚ) [[0, 0, 0]] [[1, 0, 0], [0, 1, 0], [0, 0, 1]] [(str! "V", str! "#FFFFFF")] [(str! "V", str! "o")] (str! "f")
    ⟨str! "CO_g + *_s -> CO_s", [[[0, 0, 0]]], [str! "V"], [], [0]⟩ = .error .ValueError :=
  C111_after_failing _ _ _ _ _ _ [(str! "f_0.png", str! "CO_g + *_s -> CO_s(before)", [⟨0, 0, str! "#FFFFFF", str! "#5E5E5E", str! "o"⟩]),
    (str! "f_1.png", str! "CO_g + *_s -> CO_s(after)", [⟨0, 0, str! "#FFFFFF", str! "#5E5E5E", str! "o"⟩])] (by decide +kernel) (by decide)

/-! ## C91 -/

/-- **C91** Images of different sizes or kinds are a ValueError. -/
theorem C91_shapes (im : Img) (rest : List Img) (h : ¬ ∀ x ∈ rest, x.h = im.h ∧ x.w = im.w ∧ x.ch = im.ch) :
    getSubRectangles (im :: rest) = .error .ValueError := by
  have key : ∀ (rest : List Img) (im : Img), (¬ ∀ x ∈ rest, x.h = im.h ∧ x.w = im.w ∧ x.ch = im.ch) → subRectLoop im rest = .error .ValueError := by
    intro rest
    induction rest with
    | nil => intro im h; exact absurd (by simp) h
    | cons a rest ih =>
      intro im h
      unfold subRectLoop
      split
      · rename_i e
        dsimp only
        rw [ih a (fun hall => h fun x hx => by
          rcases List.mem_cons.mp hx with rfl | hx
          · exact e
          · obtain ⟨a1, a2, a3⟩ := hall x hx
            exact ⟨a1.trans e.1, a2.trans e.2.1, a3.trans e.2.2⟩)]
        rfl
      · rfl
  cases rest with
  | nil => exact absurd (by simp) h
  | cons a rest =>
    show (subRectLoop im (a :: rest) >>= _) = _
    rw [key _ _ h]
    rfl

example : getSubRectangles [toyA, ⟨5, 5, 3, fun _ _ => [0, 0, 0]⟩] = .error .ValueError := C91_shapes _ _ (by simp [toyA])

end Verif
