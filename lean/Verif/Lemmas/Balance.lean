import Verif.Lemmas.MeanField
import Mathlib.Tactic.Ring
/-
Sums over reactions and species.
-/
namespace Verif
open Dict
set_option linter.unusedSectionVars false

/-- Total coefficient of a name in an optional state. -/
def stateCoef (x : Str) : Option (List Formula) → Int
  | some fs => totalCoef x fs
  | none => 0

/-- Final minus initial total coefficient of a name. -/
def produced (x : Str) (states : List (List Formula)) : Int :=
  stateCoef x states.getLast? - stateCoef x states.head?

variable {K : Type} [Field K]

/-- Sum over the reactions of the number produced times the net rate. -/
def production (n : Network) (net : List K) (x : Str) : K :=
  (List.zipWith (fun states r => (produced x states : K) * r) n.rxns net).sum

theorem sum_zipWith_range {α β : Type} (f : α → β → K) (l : List α) (r : List β) (h : l.length = r.length)
    (g : Nat → K) (hg : ∀ i (h1 : i < l.length) (h2 : i < r.length), g i = f l[i] r[i]) :
    (List.zipWith f l r).sum = ((List.range l.length).map g).sum := by
  congr 1
  apply List.ext_getElem
  · simp [h]
  · intro i h1 h2
    simp only [List.length_zipWith, List.length_map, List.length_range] at h1 h2
    simp [hg i h2 (by omega)]

theorem sum_map_add' {α : Type} (l : List α) (f g : α → K) :
    (l.map fun x => f x + g x).sum = (l.map f).sum + (l.map g).sum := by
  induction l with
  | nil => simp
  | cons a l ih => simp only [List.map_cons, List.sum_cons, ih]; ring

theorem sum_map_mul_left' {α : Type} (l : List α) (c : K) (f : α → K) :
    (l.map fun x => c * f x).sum = c * (l.map f).sum := by
  induction l with
  | nil => simp
  | cons a l ih => simp only [List.map_cons, List.sum_cons, ih]; ring

theorem sum_map_neg' {α : Type} (l : List α) (f : α → K) : (l.map fun x => - f x).sum = - (l.map f).sum := by
  induction l with
  | nil => simp
  | cons a l ih => simp only [List.map_cons, List.sum_cons, ih]; ring

theorem sum_map_zero {α : Type} (l : List α) (f : α → K) (h : ∀ x ∈ l, f x = 0) : (l.map f).sum = 0 := by
  induction l with
  | nil => rfl
  | cons a l ih =>
    rw [List.map_cons, List.sum_cons, h a (by simp), ih fun x hx => h x (by simp [hx]), add_zero]

/-- Exchange of the sums over species and over reactions. -/
theorem production_swap (rs : List (List (List Formula))) (net : List K) (l : List Str) (w : Str → K) :
    (l.map fun x => (List.zipWith (fun states r => (produced x states : K) * r) rs net).sum * w x).sum
      = (List.zipWith (fun states r => r * (l.map fun x => (produced x states : K) * w x).sum) rs net).sum := by
  induction rs generalizing net with
  | nil => simp
  | cons st rs ih =>
    cases net with
    | nil => simp
    | cons r net =>
      simp only [List.zipWith_cons_cons, List.sum_cons]
      rw [← ih net]
      rw [← sum_map_mul_left', ← sum_map_add']
      congr 1
      apply List.map_congr_left
      intro x _
      ring

theorem rowTimes_eq (names : List Str) (rs : List (List (List Formula))) (net : List K)
    (hlen : rs.length = net.length) :
    rowTimes names.length net (rs.map fun st => names.map fun x => (produced x st : K))
      = names.map fun x => (List.zipWith (fun states r => (produced x states : K) * r) rs net).sum := by
  induction rs generalizing net with
  | nil =>
    cases net with
    | nil => simp [rowTimes, List.map_const']
    | cons => simp at hlen
  | cons st rs ih =>
    cases net with
    | nil => simp at hlen
    | cons r net =>
      rw [List.map_cons, rowTimes, ih net (by simpa using hlen), List.zipWith_map]
      apply List.ext_getElem
      · simp
      · intro i h1 h2
        simp [mul_comm]

/-- The rows of both matrices in terms of the coefficients. -/
theorem stoich_rows {rxns : List Str} {n : Network} (h : parseNetwork rxns = .ok n) :
    n.stoichMatrices = .ok (n.rxns.map (fun st => n.siteCols.map fun x => - produced x st),
      n.rxns.map (fun st => n.reaproCols.map fun x => - produced x st)) := by
  obtain ⟨S, R, hM, lS, lR, hrow⟩ := C09_entries rxns n h
  have hl := length_rxns h
  rw [hM]
  have key : ∀ (M : List (List Int)) (cols : List Str), M.length = rxns.length →
      (∀ i (_ : i < rxns.length), ∃ states is fs row, n.rxns[i]? = some states ∧ states.head? = some is ∧
        states.getLast? = some fs ∧ M[i]? = some row ∧ row.length = cols.length ∧
        ∀ (j : Nat) (x : Str), cols[j]? = some x → row[j]? = some ((totalCoef x is : Int) - totalCoef x fs)) →
      M = n.rxns.map (fun st => cols.map fun x => - produced x st) := by
    intro M cols hlM hall
    apply List.ext_getElem
    · simp [hl, hlM]
    · intro i h1 h2
      obtain ⟨states, is, fs, row, e1, e2, e3, e4, e5, e6⟩ := hall i (by omega)
      rw [List.getElem_map]
      rw [List.getElem?_eq_getElem (by omega)] at e1 e4
      rw [Option.some.inj e1, Option.some.inj e4]
      apply List.ext_getElem
      · simp [e5]
      · intro j h3 h4
        have h5 : j < cols.length := by omega
        have := e6 j cols[j] (List.getElem?_eq_getElem h5)
        rw [List.getElem?_eq_getElem h3] at this
        rw [Option.some.inj this, List.getElem_map]
        simp [produced, stateCoef, e2, e3]
  congr 1
  refine Prod.ext ?_ ?_
  · apply key S n.siteCols lS
    intro i hi
    obtain ⟨is, fs, fss, e1, e2, e3, s, r, f1, f2, f3, f4, f5, f6⟩ := hrow i hi
    obtain ⟨st, _, _, g1, g2, -⟩ := states_ok h hi
    rw [e1] at g1; cases g1
    exact ⟨_, is, fs, s, g2, e2, e3, f1, f3, f5⟩
  · apply key R n.reaproCols lR
    intro i hi
    obtain ⟨is, fs, fss, e1, e2, e3, s, r, f1, f2, f3, f4, f5, f6⟩ := hrow i hi
    obtain ⟨st, _, _, g1, g2, -⟩ := states_ok h hi
    rw [e1] at g1; cases g1
    exact ⟨_, is, fs, r, g2, e2, e3, f2, f4, f6⟩

theorem int_sum_zero {l m : List Str} {f g : Str → Int}
    (h : (List.zipWith (fun a x => a * g x) (l.map f) l).sum + (List.zipWith (fun a x => a * g x) (m.map f) m).sum = 0) :
    (l.map fun x => (f x : K) * (g x : K)).sum + (m.map fun x => (f x : K) * (g x : K)).sum = 0 := by
  have key : ∀ l : List Str, ((List.zipWith (fun a x => a * g x) (l.map f) l).sum : K)
      = (l.map fun x => (f x : K) * (g x : K)).sum := by
    intro l
    induction l with
    | nil => simp
    | cons a l ih => simp only [List.map_cons, List.zipWith_cons_cons, List.sum_cons]; rw [Int.cast_add, Int.cast_mul, ih]
  rw [← key l, ← key m]
  exact_mod_cast congrArg (fun z : Int => (z : K)) h

/-- Element balance of one reaction in terms of the numbers produced. -/
theorem element_balance {rxns : List Str} {n : Network} (h : parseNetwork rxns = .ok n)
    {st : List (List Formula)} (hst : st ∈ n.rxns) (hc : CleanEnds st) (e : Char) :
    (n.siteCols.map fun x => (produced x st : K) * (nameCount e x : K)).sum
      + (n.reaproCols.map fun x => (produced x st : K) * (nameCount e x : K)).sum = 0 := by
  obtain ⟨i, hi, rfl⟩ := List.mem_iff_getElem.mp hst
  have := C10_elements_conserved_partial rxns n h _ _ (stoich_rows h) i _ _ _ (List.getElem?_eq_getElem hi)
    (by rw [List.getElem?_map, List.getElem?_eq_getElem hi]; rfl)
    (by rw [List.getElem?_map, List.getElem?_eq_getElem hi]; rfl) hc e
  have h2 := int_sum_zero (K := K) this
  simp only [Int.cast_neg, neg_mul, sum_map_neg'] at h2
  linear_combination -h2

/-- Site balance of one reaction in terms of the numbers produced. -/
theorem site_balance {rxns : List Str} {n : Network} (h : parseNetwork rxns = .ok n)
    {st : List (List Formula)} (hst : st ∈ n.rxns) (hc : CleanSites st) (t : Str) :
    (n.siteCols.map fun x => (produced x st : K) * (nameSites t x : K)).sum
      + (n.reaproCols.map fun x => (produced x st : K) * (nameSites t x : K)).sum = 0 := by
  obtain ⟨i, hi, rfl⟩ := List.mem_iff_getElem.mp hst
  have := C10_sites_conserved_partial rxns n h _ _ (stoich_rows h) i _ _ _ (List.getElem?_eq_getElem hi)
    (by rw [List.getElem?_map, List.getElem?_eq_getElem hi]; rfl)
    (by rw [List.getElem?_map, List.getElem?_eq_getElem hi]; rfl) hc t
  have h2 := int_sum_zero (K := K) this
  simp only [Int.cast_neg, neg_mul, sum_map_neg'] at h2
  linear_combination -h2

end Verif
