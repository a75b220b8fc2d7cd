import Verif.Model.EventText
import Verif.Props.Tables
import Verif.Props.Kmc
/-
The text of the event file (C108).
-/
namespace Verif

/-! ### Reading: a small specification -/

/-- Digits, point, digits, a percent sign. -/
def readPercent (s : Str) : Option ℚ :=
  let a := s.takeWhile isDigit
  let s := s.dropWhile isDigit
  if s.head? ≠ some '.' then none
  else
    let b := (s.drop 1).takeWhile isDigit
    if (s.drop 1).dropWhile isDigit ≠ ['%'] ∨ a = [] then none else some ((intOf (a ++ b) : ℚ) / 10 ^ b.length)

example : readPercent (str! "33.33%") = some (3333 / 100) := by decide +kernel
example : readPercent (str! "100.00%") = some 100 := by decide +kernel
example : readPercent (str! "3.1") = none := by decide +kernel

/-- The name of a process in a row. -/
def rowName (arrow : Bool) (i : Nat) (name : Str) : Str :=
  (if arrow then str! "-> " else []) ++ str! "(" ++ Nat.toDigits 10 i ++ str! ") " ++ name

theorem readPercent_percentText (p : ℚ) (hp : 0 ≤ p) : ∃ q, readPercent (percentText p) = some q ∧ |q - 100 * p| ≤ 1 / 200 := by
  have hr := roundHalfEven_close (p * 10000)
  have hb := (roundHalfEven_bounds (p * 10000)).1
  have h0 : 0 ≤ roundHalfEven (p * 10000) := le_trans (Int.floor_nonneg.mpr (by positivity)) hb
  set m := (roundHalfEven (p * 10000)).toNat with hm
  have hmz : ((m : ℕ) : ℚ) = (roundHalfEven (p * 10000) : ℚ) := by
    rw [hm]; exact_mod_cast Int.toNat_of_nonneg h0
  have hA : ∀ c ∈ Nat.toDigits 10 (m / 100), isDigit c = true := digits_toDigits _
  have hB : ∀ c ∈ fixedDigits 2 m, isDigit c = true := fixedDigits_digit _ _
  have hl : (fixedDigits 2 m).length = 2 := fixedDigits_length _ _
  have t1 := span_digits (a := Nat.toDigits 10 (m / 100)) (b := '.' :: (fixedDigits 2 m ++ ['%'])) hA (by intro c hc; cases hc; decide)
  have t2 := span_digits (a := fixedDigits 2 m) (b := ['%']) hB (by intro c hc; cases hc; decide)
  have hv : intOf (Nat.toDigits 10 (m / 100) ++ fixedDigits 2 m) = m := by
    rw [intOf_append, intOf_toDigits, intOf_fixed, hl]
    have := Nat.div_add_mod m (10 ^ 2)
    rw [mul_comm]; exact this
  refine ⟨(m : ℚ) / 10 ^ 2, ?_, ?_⟩
  · have hsrc : percentText p = Nat.toDigits 10 (m / 100) ++ '.' :: (fixedDigits 2 m ++ ['%']) := by
      unfold percentText; simp [hm]
    rw [hsrc]
    unfold readPercent
    dsimp only
    rw [t1.1, t1.2, if_neg (by simp)]
    have hd : List.drop 1 ('.' :: (fixedDigits 2 m ++ ['%'])) = fixedDigits 2 m ++ ['%'] := rfl
    rw [hd, t2.1, t2.2, if_neg (by simp [Nat.toDigits_ne_nil]), hv, hl]
  · rw [hmz]
    rw [abs_le] at hr ⊢
    constructor <;> linarith [hr.1, hr.2]

/-! ## C108 -/

/-- With a label for every process, non-negative rates and a positive total, the table has a row for every process in order: its number and label,
with the arrow exactly if it is the picked one; its number of sites; its total rate to three digits; its share of the total in
percent to a two hundredth. Missing: fewer labels (`C108_arrow_refuted`). -/
theorem C108_rows_partial (mapping : List Str) (sites : List Nat) (rates : List ℚ) (picked : Nat)
    (hl : rates.length = sites.length) (hm : mapping.length = sites.length) (hr : ∀ r ∈ rates, 0 ≤ r)
    (ht : (List.zipWith (fun (n : Nat) r => (n : ℚ) * r) sites rates).sum ≠ 0) :
    ∃ table, interactionsTable mapping sites rates = .ok table ∧ (table.map (eventCells picked)).length = sites.length ∧
      ∀ (i : Nat) (cells : List Str), (table.map (eventCells picked))[i]? = some cells →
        ∃ (name : Str) (n : Nat) (r : ℚ) (c1 c2 c3 c4 : Str), mapping[i]? = some name ∧ sites[i]? = some n ∧ rates[i]? = some r ∧
          cells = [c1, c2, c3, c4] ∧ c1 = rowName (decide (i = picked)) i name ∧
          (c2 ≠ [] ∧ c2.all isDigit = true ∧ intOf c2 = n) ∧
          (∃ v, readSci c3 = some v ∧ CloseTo 2 (n * r) v) ∧
          ∃ q, readPercent c4 = some q ∧
            |q - 100 * (n * r / (List.zipWith (fun (n : Nat) r => (n : ℚ) * r) sites rates).sum)| ≤ 1 / 200 := by
  obtain ⟨table, h1, h2, -, h4⟩ := C56_table_partial mapping sites rates hl hm hr ht
  refine ⟨table, h1, by simpa using h2, ?_⟩
  intro i cells hc
  rw [List.getElem?_map] at hc
  cases hrow : table[i]? with
  | none => rw [hrow] at hc; exact nomatch hc
  | some row =>
    rw [hrow] at hc
    have hc' : eventCells picked row = cells := by simpa using hc
    obtain ⟨k1, k2, k3, k4, r, k5, k6, k7⟩ := h4 i row hrow
    obtain ⟨q, q1, q2⟩ := readPercent_percentText row.prob k4
    refine ⟨row.rxn, row.sites, r, _, _, _, _, k2, k3, k5, hc'.symm, ?_, ⟨Nat.toDigits_ne_nil, ?_, intOf_toDigits _⟩,
      ⟨_, readSci_sciText 2 row.rate, k6 ▸ sciValue_close 2 row.rate⟩, q, q1, ?_⟩
    · rw [k1]
      unfold rowName
      by_cases hp : i = picked <;> simp [hp]
    · exact List.all_eq_true.mpr (digits_toDigits _)
    · rw [← k7, mul_div_assoc, div_self ht, mul_one]
      exact q2

example : (interactionsTable [str! "a(->)", str! "a(<-)"] [3, 1] [(1 : ℚ), 2]).map (List.map (eventCells 1)) =
    .ok [[str! "(0) a(->)", str! "3", str! "3.00e+00", str! "60.00%"], [str! "-> (1) a(<-)", str! "1", str! "2.00e+00", str! "40.00%"]] := by
  decide +kernel

/-- Exactly one row has the arrow: that of the picked process, if it has a label. -/
theorem C108_arrow_partial (mapping : List Str) (sites : List Nat) (rates : List ℚ) (picked : Nat)
    (hl : rates.length = sites.length) (hm : mapping.length = sites.length) (hr : ∀ r ∈ rates, 0 ≤ r)
    (ht : (List.zipWith (fun (n : Nat) r => (n : ℚ) * r) sites rates).sum ≠ 0) (hp : picked < sites.length) :
    ∃ table, interactionsTable mapping sites rates = .ok table ∧
      ∃! i : Nat, ∃ (c : Str) (cells : List Str), (table.map (eventCells picked))[i]? = some (c :: cells) ∧ (str! "-> ").isPrefixOf c = true := by
  obtain ⟨table, h1, h2, h3⟩ := C108_rows_partial mapping sites rates picked hl hm hr ht
  refine ⟨table, h1, picked, ?_, ?_⟩
  · have hlt : picked < (table.map (eventCells picked)).length := by omega
    have hg := List.getElem?_eq_getElem hlt
    obtain ⟨name, n, r, c1, c2, c3, c4, -, -, -, hc, hn, -⟩ := h3 picked _ hg
    refine ⟨c1, [c2, c3, c4], hg.trans (congrArg some hc), ?_⟩
    rw [hn]
    simp [rowName]
  · rintro i ⟨c, cells, hc, hpre⟩
    obtain ⟨name, n, r, c1, c2, c3, c4, -, -, -, hcc, hn, -⟩ := h3 i _ hc
    by_contra hne
    have : c = c1 := by injection hcc
    rw [this, hn] at hpre
    simp [rowName, hne] at hpre

/-- A picked process without a label is shown nowhere. -/
theorem C108_arrow_refuted : ∃ table, interactionsTable [str! "a(->)"] [3, 1] [(1 : ℚ), 2] = .ok table ∧
    table.map (eventCells 1) = [[str! "(0) a(->)", str! "3", str! "3.00e+00", str! "60.00%"]] :=
  ⟨[⟨0, str! "a(->)", 3, 3, 3 / 5⟩], by decide +kernel, by decide +kernel⟩

/-- The percentages that are shown add up to a hundred to a two hundredth per process. Missing: exactly (`C108_percent_refuted`). -/
theorem C108_percent_partial (mapping : List Str) (sites : List Nat) (rates : List ℚ) (picked : Nat)
    (hl : rates.length = sites.length) (hm : mapping.length = sites.length) (hr : ∀ r ∈ rates, 0 ≤ r)
    (ht : (List.zipWith (fun (n : Nat) r => (n : ℚ) * r) sites rates).sum ≠ 0) :
    ∃ table, interactionsTable mapping sites rates = .ok table ∧
      ∃ qs : List ℚ, (table.map (eventCells picked)).map (fun c => c[3]?.bind readPercent) = qs.map some ∧
        |qs.sum - 100| ≤ sites.length / 200 := by
  obtain ⟨table, h1, h2, h3, h4⟩ := C56_table_partial mapping sites rates hl hm hr ht
  refine ⟨table, h1, ?_⟩
  have hp : ∀ row ∈ table, 0 ≤ row.prob := by
    intro row hrow
    obtain ⟨i, hi⟩ := List.mem_iff_getElem?.mp hrow
    exact (h4 i row hi).2.2.2.1
  rw [← h2]
  have h100 : (100 : ℚ) = 100 * (table.map (·.prob)).sum := by rw [h3, mul_one]
  rw [h100]
  clear h1 h2 h3 h4 h100
  induction table with
  | nil => exact ⟨[], rfl, by simp⟩
  | cons row table ih =>
    obtain ⟨qs, e1, e2⟩ := ih (fun r hr => hp r (by simp [hr]))
    obtain ⟨q, q1, q2⟩ := readPercent_percentText row.prob (hp row (by simp))
    refine ⟨q :: qs, ?_, ?_⟩
    · rw [List.map_cons, List.map_cons, List.map_cons, e1]
      congr 1
    · rw [abs_le] at e2 q2 ⊢
      simp only [List.map_cons, List.sum_cons, List.length_cons, Nat.cast_add, Nat.cast_one]
      constructor <;> linarith [e2.1, e2.2, q2.1, q2.2]

/-- Three processes with the same rate: 99.99 percent. -/
theorem C108_percent_refuted : ∃ table, interactionsTable [str! "a", str! "b", str! "c"] [1, 1, 1] [(1 : ℚ), 1, 1] = .ok table ∧
    (table.map (eventCells 0)).map (fun c => c[3]?.bind readPercent) = [some (3333 / 100), some (3333 / 100), some (3333 / 100)] ∧
    (3333 / 100 + 3333 / 100 + 3333 / 100 : ℚ) = 9999 / 100 :=
  ⟨[⟨0, str! "a", 1, 1, 1 / 3⟩, ⟨1, str! "b", 1, 1, 1 / 3⟩, ⟨2, str! "c", 1, 1, 1 / 3⟩], by decide +kernel, by decide +kernel, by norm_num⟩

/-- The number of sites under the title is that of all processes. -/
theorem C108_sites (mapping : List Str) (sites : List Nat) (rates : List ℚ)
    (hl : rates.length = sites.length) (hm : mapping.length = sites.length) (hr : ∀ r ∈ rates, 0 ≤ r)
    (ht : (List.zipWith (fun (n : Nat) r => (n : ℚ) * r) sites rates).sum ≠ 0)
    (render : List Str → List (List Str) → Str) (step : Int) (picked : Nat) :
    ∃ table, interactionsTable mapping sites rates = .ok table ∧
      ∃ rest, eventBlock render step table picked = str! "\nStep: " ++ intText (step - 1) ++ str! "\nTotal available sites number: " ++
        Nat.toDigits 10 sites.sum ++ '\n' :: rest := by
  obtain ⟨table, h1, h2, h3, h4⟩ := C56_table_partial mapping sites rates hl hm hr ht
  have hs : table.map (·.sites) = sites := by
    apply List.ext_getElem?
    intro i
    rw [List.getElem?_map]
    cases hi : table[i]? with
    | none =>
      have := List.getElem?_eq_none_iff.mp hi
      rw [List.getElem?_eq_none (by omega)]; rfl
    | some row => rw [(h4 i row hi).2.2.1]; rfl
  refine ⟨table, h1, render [str! "process", str! "available sites", str! "total rate", str! "probability"] (table.map (eventCells picked)) ++
    str! "\n('->' points to the process picked in step " ++ intText step ++ str! ")\n", ?_⟩
  unfold eventBlock
  rw [hs]
  simp

/-- Whatever the size of the buffer: with analysis after every step and tables that are not empty, the file is the header and, for every step but the last, a block with
the number of the step, the table after that step and the process picked in the next one. Missing: other intervals (`C108_step_refuted`),
the last table (`C56_last_refuted`). -/
theorem C108_file_partial (render : List Str → List (List Str) → Str) (bufferSize : Nat) (mapping : List Str)
    (l : List (Int × List (EventRow ℚ) × Nat)) (hne : ∀ x ∈ l, x.2.1 ≠ []) (hs : ∀ p ∈ l.zip l.tail, p.2.1 = p.1.1 + 1) :
    eventFile render bufferSize mapping l = eventHeader render mapping ++ (l.zip l.tail).flatMap fun p =>
      str! "\nStep: " ++ intText p.1.1 ++ str! "\nTotal available sites number: " ++ Nat.toDigits 10 (p.1.2.1.map (·.sites)).sum ++ str! "\n" ++
      render [str! "process", str! "available sites", str! "total rate", str! "probability"] (p.1.2.1.map (eventCells p.2.2.2)) ++
      str! "\n('->' points to the process picked in step " ++ intText (p.1.1 + 1) ++ str! ")\n" := by
  unfold eventFile
  rw [C56_written_partial bufferSize l hne, List.flatMap_map]
  congr 1
  apply List.flatMap_congr
  intro p hp
  have := hs p hp
  unfold eventBlock
  dsimp only
  rw [this]
  simp

/-- With analysis after every second step the number in the title is not that of the table. -/
theorem C108_step_refuted (render : List Str → List (List Str) → Str) (mapping : List Str) (t u : List (EventRow ℚ)) (ht : t ≠ []) (hu : u ≠ []) (i j : Nat) :
    ∃ rest, eventFile render 50 mapping [(2, t, i), (4, u, j)] = eventHeader render mapping ++ str! "\nStep: 3\nTotal" ++ rest := by
  unfold eventFile
  rw [C56_written_partial 50 _ (by simp [ht, hu])]
  simp only [List.tail_cons, List.zip_cons_cons, List.zip_nil_right, List.map_cons, List.map_nil, List.flatMap_cons, List.flatMap_nil, List.append_nil]
  unfold eventBlock
  have : intText ((4 : Int) - 1) = str! "3" := by decide
  rw [this]
  simp only [List.append_assoc]
  exact ⟨_, rfl⟩

/-- The header says how many processes there are and lists them with their numbers. -/
theorem C108_header (render : List Str → List (List Str) → Str) (mapping : List Str) :
    ∃ (rows : List (List Str)) (rule : Str), rows.length = mapping.length ∧
      (∀ (i : Nat) (name : Str), mapping[i]? = some name → rows[i]? = some [Nat.toDigits 10 i, name]) ∧
      rule.length = (str! "Visualized displaying of KMC Event Analysis").length ∧ rule.all (· = '=') = true ∧
      eventHeader render mapping = rule ++ str! "\n\nVisualized displaying of KMC Event Analysis\n\n" ++ rule ++ str! "\n\n" ++
        Nat.toDigits 10 mapping.length ++ str! " processes listed below:\n" ++ render [str! "process index", str! "reaction"] rows ++ str! "\n" := by
  refine ⟨mapping.zipIdx.map fun x => [Nat.toDigits 10 x.2, x.1], List.replicate 43 '=', by simp, ?_, by decide, by decide, by unfold eventHeader; with_reducible rfl⟩
  intro i name h
  rw [List.getElem?_map, List.getElem?_zipIdx, h]
  simp

/-- Without labels nothing but the header is written. -/
theorem C108_empty (render : List Str → List (List Str) → Str) (bufferSize : Nat) (l : List (Int × List (EventRow ℚ) × Nat)) (h : ∀ x ∈ l, x.2.1 = []) :
    eventFile render bufferSize [] l = eventHeader render [] := by
  have gen : ∀ (l : List (Int × List (EventRow ℚ) × Nat)) (c : Nat), (∀ x ∈ l, x.2.1 = []) → EventState.written bufferSize ⟨[], [], [], c⟩ l = [] := by
    intro l
    induction l with
    | nil => intro c _; rfl
    | cons x l ih =>
      intro c hl
      obtain ⟨step, table, picked⟩ := x
      have ht : table = [] := hl (step, table, picked) (by simp)
      subst ht
      rw [EventState.written, EventState.register]
      unfold EventState.push
      rw [if_pos rfl]
      dsimp only
      by_cases hb : bufferSize ≤ c
      · rw [if_pos hb]; exact ih 0 (fun z hz => hl z (by simp [hz]))
      · rw [if_neg hb]; exact ih c (fun z hz => hl z (by simp [hz]))
  unfold eventFile
  rw [gen l 0 h]
  simp

/-- A table library that joins the cells by blanks. -/
def exRender (fields : List Str) (rows : List (List Str)) : Str :=
  List.intercalate (str! "\n") ((fields :: rows).map (List.intercalate (str! " ")))

example : eventBlock exRender 5 [⟨0, str! "a(->)", 3, 3, 3 / 5⟩, ⟨1, str! "a(<-)", 1, 2, 2 / 5⟩] 0 =
    str! "\nStep: 4\nTotal available sites number: 4\nprocess available sites total rate probability\n-> (0) a(->) 3 3.00e+00 60.00%\n(1) a(<-) 1 2.00e+00 40.00%\n('->' points to the process picked in step 5)\n" := by
  decide +kernel

example : ∀ p ∈ (([(1, [⟨0, str! "a", 1, 1, 1⟩], 0), (2, [⟨0, str! "a", 2, 2, 1⟩], 0)] : List (Int × List (EventRow ℚ) × Nat)).zip
    ([(2, [⟨0, str! "a", 2, 2, 1⟩], 0)] : List (Int × List (EventRow ℚ) × Nat))), p.2.1 = p.1.1 + 1 := by decide +kernel

/-! ### The theorems at these cases -/

example := C108_rows_partial [str! "a(->)", str! "a(<-)"] [3, 1] [(1 : ℚ), 2] 1 rfl rfl (by decide +kernel) (by decide +kernel)

example := C108_arrow_partial [str! "a(->)", str! "a(<-)"] [3, 1] [(1 : ℚ), 2] 1 rfl rfl (by decide +kernel) (by decide +kernel) (by decide)

example := C108_percent_partial [str! "a(->)", str! "a(<-)"] [3, 1] [(1 : ℚ), 2] 1 rfl rfl (by decide +kernel) (by decide +kernel)

example := C108_sites [str! "a(->)", str! "a(<-)"] [3, 1] [(1 : ℚ), 2] rfl rfl (by decide +kernel) (by decide +kernel) exRender 5 0

example := C108_file_partial exRender 50 [str! "a"] [(1, [⟨0, str! "a", 1, 1, 1⟩], 0), (2, [⟨0, str! "a", 2, 2, 1⟩], 0)] (by decide +kernel) (by decide +kernel)

example := C108_step_refuted exRender [str! "a"] [⟨0, str! "a", 1, 1, 1⟩] [⟨0, str! "a", 2, 2, 1⟩] (by decide +kernel) (by decide +kernel) 0 0

example := C108_empty exRender 50 [(1, [], 0), (2, [], 0)] (by decide +kernel)

end Verif
