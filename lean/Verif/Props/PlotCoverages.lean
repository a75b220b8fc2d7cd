import Verif.Model.PlotCoverages
import Verif.Lemmas.Py
import Verif.Lemmas.Rxn
import Verif.Props.DataFile
import Mathlib.Tactic.Linarith
/-
C107: the figures of coverages show the coverages of the files.
-/
namespace Verif
open Dict

/-! ## Specification -/

/-- The coverage of the types with a first letter. -/
def letterSum {K : Type} [AddMonoid K] (types : List Str) (cov : Str → Nat → K) (c : Char) (i : Nat) : K :=
  ((types.filter fun t => t.head? == some c).map fun t => cov t i).sum

/-- A file with `n` recordings: steps, times, types and the coverage of every type. -/
def HoldsRecordings {K : Type} (file : List (Stmt K)) (steps times : List K) (types : List Str) (cov : Str → Nat → K) : Prop :=
  ∃ env, execFile file = .ok env ∧ get? env (str! "steps") = some (steps.map .num) ∧ get? env (str! "times") = some (times.map .num) ∧
    get? env (str! "possible_types") = some (types.map .str) ∧
    get? env (str! "coverages") = some (types.map fun t => .nums ((List.range steps.length).map (cov t)))

/-! ## Lemmas -/

section
variable {K : Type}

theorem addCurve_range [Add K] (n : Nat) (f g : Nat → K) :
    addCurve ((List.range n).map f) (.nums ((List.range n).map g)) = .ok ((List.range n).map fun i => f i + g i) := by
  unfold addCurve
  dsimp only
  rw [if_pos (by simp), List.zipWith_map, List.zipWith_self]

theorem prefix_letter (c : Char) (s : Str) : [c] <+: s ↔ s.head? = some c := by
  cases s with
  | nil => simp
  | cons d s => simp [List.cons_prefix_cons, eq_comm]

theorem mergeLoop_ok [AddCommMonoid K] (n : Nat) (cov : Str → Nat → K) (types : List Str) : ∀ (a b c : Nat → K),
    mergeLoop ⟨(List.range n).map a, (List.range n).map b, (List.range n).map c⟩
      ((types.map Elem.str).zip (types.map fun t => Elem.nums ((List.range n).map (cov t)))) =
    .ok ⟨(List.range n).map fun i => a i + letterSum types cov 'C' i, (List.range n).map fun i => b i + letterSum types cov 'O' i,
      (List.range n).map fun i => c i + letterSum types cov 'V' i⟩ := by
  induction types with
  | nil => intro a b c; simp [mergeLoop, letterSum]
  | cons t ts ih =>
    intro a b c
    simp only [List.map_cons, List.zip_cons_cons, mergeLoop]
    show (mergeType _ t _ >>= fun m => mergeLoop m _) = _
    unfold mergeType
    simp only [prefix_letter]
    by_cases hO : t.head? = some 'O'
    · rw [if_pos hO, addCurve_range]
      refine (ih _ _ _).trans ?_
      simp [letterSum, hO, add_assoc]
    · rw [if_neg hO]
      by_cases hC : t.head? = some 'C'
      · rw [if_pos hC, addCurve_range]
        refine (ih _ _ _).trans ?_
        simp [letterSum, hC, add_assoc]
      · rw [if_neg hC]
        by_cases hV : t.head? = some 'V'
        · rw [if_pos hV, addCurve_range]
          refine (ih _ _ _).trans ?_
          simp [letterSum, hV, add_assoc]
        · rw [if_neg hV]
          refine (ih _ _ _).trans ?_
          simp [letterSum, hO, hC, hV]

theorem numsOf_num (l : List K) : numsOf (l.map Elem.num) = .ok l := by
  unfold numsOf
  rw [List.mapM_map]
  have := mapM_ok (f := (fun e : Elem K => match e with | .num x => (Except.ok x : Py K) | _ => .error .ValueError) ∘ Elem.num) (g := id) (l := l)
    fun x _ => rfl
  rw [List.map_id] at this
  exact this

/-! ## Theorems -/

/-- C107: the figure of merged coverages shows, for every recording, the sum of the coverages of the types with the first letter of
the species, and the averages of these sums over the recordings. Missing: types with another first letter
(`C107_letters_refuted`) and files written by the program (`C107_own_files_refuted`). -/
theorem C107_merged_partial [Field K] (file : List (Stmt K)) (steps times : List K) (types : List Str) (cov : Str → Nat → K)
    (h : HoldsRecordings file steps times types cov) (hn : steps ≠ []) (ht : times.length = steps.length) :
    plotMerged file = .ok (steps, times,
      ⟨(List.range steps.length).map fun i => letterSum types cov 'C' i, (List.range steps.length).map fun i => letterSum types cov 'O' i,
        (List.range steps.length).map fun i => letterSum types cov 'V' i⟩,
      some (((List.range steps.length).map fun i => letterSum types cov 'O' i).sum / (steps.length : K)),
      some (((List.range steps.length).map fun i => letterSum types cov 'C' i).sum / (steps.length : K))) := by
  obtain ⟨env, he, h1, h2, h3, h4⟩ := h
  have hz : List.replicate (steps.map (Elem.num (α := K))).length (0 : K) = (List.range steps.length).map fun _ => 0 := by simp
  have hm := mergeLoop_ok steps.length cov types (fun _ => 0) (fun _ => 0) (fun _ => 0)
  simp only [zero_add] at hm
  unfold plotMerged localVar
  rw [he]
  dsimp only [bind, Except.bind]
  rw [h1, h2, h3, h4]
  dsimp only
  rw [hz, hm]
  dsimp only
  rw [numsOf_num]
  dsimp only
  rw [if_neg hn, numsOf_num]
  dsimp only [pure, Except.pure]
  rw [if_neg (by simpa using ht)]
  have hne : ∀ f : Nat → K, (List.range steps.length).map f ≠ [] := by
    intro f e
    have : steps.length = 0 := by simpa using congrArg List.length e
    exact hn (List.length_eq_zero_iff.mp this)
  simp [meanOf, hn]

/-- C107: when every type has the first letter of one of the three species, the three curves add to one wherever the recorded
coverages do. -/
theorem C107_sum_partial [Field K] (types : List Str) (cov : Str → Nat → K) (i : Nat)
    (hl : ∀ t ∈ types, t.head? = some 'O' ∨ t.head? = some 'C' ∨ t.head? = some 'V') (h : (types.map fun t => cov t i).sum = 1) :
    letterSum types cov 'C' i + letterSum types cov 'O' i + letterSum types cov 'V' i = 1 := by
  rw [← h]
  clear h
  induction types with
  | nil => simp [letterSum]
  | cons t ts ih =>
    have := ih fun t ht => hl t (by simp [ht])
    rw [List.map_cons, List.sum_cons, ← this]
    rcases hl t (by simp) with h | h | h <;> simp [letterSum, h] <;> ring

/-- C107 fails for the files that the analysis of coverages writes. -/
theorem C107_own_files_refuted [Field K] (possible : List Str) (n bufferSize : Nat) (first : CovRec K) (rest : List (CovRec K)) {c : Char} {cs : Str}
    (hs : (c :: cs) ∈ possible) (hc : c ∈ (str! "OCV")) :
    plotMerged (covFile (covHeader possible) n bufferSize first rest) = .error .SyntaxError := by
  have hu : isUpper c = true ∧ c ∉ (str! "RBUFT") := by
    simp only [List.mem_cons, List.not_mem_nil, or_false] at hc
    rcases hc with rfl | rfl | rfl <;> decide
  have h := C57_coverages_refuted possible n bufferSize first rest hs hu.1 hu.2
  unfold plotMerged
  rw [h]
  rfl

/-- C107: the figure of an integration shows the coverages of the first two adsorbates, and for two adsorbates the free sites.
Missing: other numbers of adsorbates (`C107_three_refuted`, `C107_one_refuted`). -/
theorem C107_ode_partial [Field K] (names : List Str) (hn : names = [] ∨ names.length = 2) (rows : List (K × K)) (hr : rows ≠ []) :
    odeCurves names (rows.map fun r => [r.1, r.2]) =
      .ok (some (rows.map (·.1), rows.map (·.2), rows.map fun r => 1 - (r.1 + r.2))) := by
  cases rows with
  | nil => exact absurd rfl hr
  | cons r rs =>
    have c0 : column ((r :: rs).map fun r => [r.1, r.2]) 0 = .ok ((r :: rs).map (·.1)) := by
      unfold column
      rw [List.mapM_map]
      exact mapM_ok fun x _ => rfl
    have c1 : column ((r :: rs).map fun r => [r.1, r.2]) 1 = .ok ((r :: rs).map (·.2)) := by
      unfold column
      rw [List.mapM_map]
      exact mapM_ok fun x _ => rfl
    unfold odeCurves
    rw [List.map_cons]
    dsimp only
    rw [if_neg (by rintro ⟨h1, h2⟩; rcases hn with h | h; exacts [h1 h, h2 (by simpa using h)])]
    rw [List.map_cons] at c0 c1
    rw [c0, c1]
    dsimp only [bind, Except.bind, pure, Except.pure]
    rw [List.zipWith_map, List.zipWith_self]
    simp only [sub_sub]

/-- C107 fails for three adsorbates: the third is shown as free sites, for every such integration. -/
theorem C107_three_refuted [Field K] (a b c : K) (hc : c ≠ 0) : ∃ v, odeCurves [] [[a, b, c]] = .ok (some ([a], [b], [v])) ∧ v ≠ 1 - (a + b + c) := by
  refine ⟨1 - a - b, rfl, fun h => hc ?_⟩
  have : 1 - a - b - (1 - (a + b + c)) = 0 := sub_eq_zero.mpr h
  rw [← this]
  ring

/-- C107 fails for one adsorbate: there is no figure. -/
theorem C107_one_refuted [Field K] (a : K) (as : List K) : odeCurves [] ((a :: as).map fun x => [x]) = .error .IndexError := by
  have c0 : column ((a :: as).map fun x => [x]) 0 = .ok (a :: as) := by
    unfold column
    rw [List.mapM_map]
    have := mapM_ok (f := (fun r : List K => match r[0]? with | some x => (Except.ok x : Py K) | none => .error .IndexError) ∘ fun x => [x]) (g := id) (l := a :: as)
      fun x _ => rfl
    rw [List.map_id] at this
    exact this
  unfold odeCurves
  rw [List.map_cons]
  dsimp only
  rw [if_neg (by simp)]
  rw [List.map_cons] at c0
  rw [c0]
  rfl

end

/-! ### Examples -/

/-- Two recordings of a run with carbon monoxide, two types of oxygen and empty sites. -/
def exRecordings : List (Stmt ℚ) :=
  [.assign (str! "times") [.num 0, .num (1 / 2)], .assign (str! "steps") [.num 1, .num 10],
   .assign (str! "possible_types") [.str (str! "Vac"), .str (str! "C"), .str (str! "O_u"), .str (str! "O_d")],
   .assign (str! "coverages") [.nums [1, 1 / 4], .nums [0, 1 / 4], .nums [0, 3 / 8], .nums [0, 1 / 8]]]

/-- The coverages of these recordings. -/
def exCov (t : Str) (i : Nat) : ℚ :=
  if t = str! "Vac" then (if i = 0 then 1 else 1 / 4) else if t = str! "C" then (if i = 0 then 0 else 1 / 4)
  else if t = str! "O_u" then (if i = 0 then 0 else 3 / 8) else if i = 0 then 0 else 1 / 8

example : HoldsRecordings exRecordings [1, 10] [0, 1 / 2] [str! "Vac", str! "C", str! "O_u", str! "O_d"] exCov :=
  ⟨_, rfl, rfl, rfl, rfl, by decide +kernel⟩

example : plotMerged exRecordings = .ok ([1, 10], [0, 1 / 2], ⟨[0, 1 / 4], [0, 1 / 2], [1, 1 / 4]⟩, some (1 / 4), some (1 / 8)) := by
  decide +kernel

-- The hypotheses of `C107_sum_partial` at the second recording.
example : letterSum [str! "Vac", str! "C", str! "O_u", str! "O_d"] exCov 'C' 1 + letterSum [str! "Vac", str! "C", str! "O_u", str! "O_d"] exCov 'O' 1 +
    letterSum [str! "Vac", str! "C", str! "O_u", str! "O_d"] exCov 'V' 1 = 1 :=
  C107_sum_partial _ exCov 1 (by decide) (by decide +kernel)

/-- C107 fails for types with other letters: a surface half covered with hydrogen is shown with half its sites missing. -/
theorem C107_letters_refuted : ∃ file : List (Stmt ℚ), ∃ cov, HoldsRecordings file [1] [0] [str! "Vac", str! "H"] cov ∧
    cov (str! "Vac") 0 + cov (str! "H") 0 = 1 ∧ plotMerged file = .ok ([1], [0], ⟨[0], [0], [1 / 2]⟩, some 0, some 0) := by
  refine ⟨[.assign (str! "times") [.num 0], .assign (str! "steps") [.num 1], .assign (str! "possible_types") [.str (str! "Vac"), .str (str! "H")],
    .assign (str! "coverages") [.nums [1 / 2], .nums [1 / 2]]], fun _ _ => 1 / 2, ⟨_, rfl, rfl, rfl, rfl, by decide +kernel⟩, by norm_num, by decide +kernel⟩

-- `C107_ode_partial`: two adsorbates.
example : odeCurves [str! "CO", str! "O"] ([((0 : ℚ), 0), (1 / 4, 1 / 2)].map fun r => [r.1, r.2]) = .ok (some ([0, 1 / 4], [0, 1 / 2], [1, 1 / 4])) := by
  rw [C107_ode_partial _ (Or.inr rfl) _ (by simp)]
  norm_num

/-! ### The theorems at these cases -/

example := C107_merged_partial exRecordings [1, 10] [0, 1 / 2] [str! "Vac", str! "C", str! "O_u", str! "O_d"] exCov ⟨_, rfl, rfl, rfl, rfl, by decide +kernel⟩
  (by simp) rfl

example := C107_own_files_refuted (K := ℚ) [str! "V", str! "C"] 2 3 ⟨0, 0, [1, 0]⟩ [⟨5, 1 / 2, [3 / 4, 1 / 4]⟩] (c := 'V') (cs := []) (by decide) (by decide)

example := C107_three_refuted (1 / 4 : ℚ) (1 / 4) (1 / 8) (by norm_num)

end Verif
