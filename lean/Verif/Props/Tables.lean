import Verif.Model.Tables
import Verif.Props.Templates
import Verif.Props.MeanField
import Mathlib.Tactic.IntervalCases
/-
Tables of results in the log (C98).
-/
set_option linter.unusedSectionVars false
namespace Verif
open Dict

/-! ### Reading: a small specification -/

/-- Digits, point, digits, `e`, sign, digits. -/
def readUnsigned (s : Str) : Option ℚ :=
  let a := s.takeWhile isDigit
  let s := s.dropWhile isDigit
  if s.head? ≠ some '.' then none
  else
    let b := (s.drop 1).takeWhile isDigit
    let s := (s.drop 1).dropWhile isDigit
    if s.head? ≠ some 'e' then none
    else if s.drop 2 = [] ∨ ¬ (s.drop 2).all isDigit then none
    else
      let e : Int := if (s.drop 1).head? = some '-' then -(intOf (s.drop 2) : Int) else intOf (s.drop 2)
      some ((intOf (a ++ b) : ℚ) * 10 ^ (e - b.length))

/-- A decimal number in scientific notation. -/
def readSci (s : Str) : Option ℚ :=
  if s.head? = some '-' then (readUnsigned (s.drop 1)).map (- ·) else readUnsigned s

/-- `s.rstrip()`. -/
def rstripSpec (s : Str) : Str := (s.reverse.dropWhile isSpace).reverse

/-- A row, by columns: ten characters for the index after a blank, the last thirty for the number, the name between. -/
def readRow (line : Str) : Option (Nat × Str × ℚ) :=
  let t := (line.drop 1).drop 10
  (readSci (rstripSpec (t.drop (t.length - 30)))).map fun x =>
    (intOf (rstripSpec ((line.drop 1).take 10)), rstripSpec (t.take (t.length - 30)), x)

/-- The rows of a table: after four lines of head, until a rule. -/
def readTable (text : Str) : Option (List (Nat × Str × ℚ)) :=
  (((splitOn '\n' text).drop 4).takeWhile fun l => l.head? ≠ some '-').mapM readRow

/-- `y` is `x` up to half a unit of the last of `d + 1` digits, with the sign of `x`. -/
def CloseTo (d : Nat) (x y : ℚ) : Prop := |y - x| * (2 * 10 ^ d) ≤ |x|

/-- Numbers in the range of machine numbers, generously. -/
def InRange (x : ℚ) : Prop := x = 0 ∨ (10 : ℚ) ^ (-400 : Int) ≤ |x| ∧ |x| < (10 : ℚ) ^ (400 : Int)

instance (x : ℚ) : Decidable (InRange x) := by unfold InRange; infer_instance

/-! ### Numbers -/

theorem roundHalfEven_close (x : ℚ) : |(roundHalfEven x : ℚ) - x| ≤ 1 / 2 := by
  unfold roundHalfEven
  have h1 := Int.floor_le x
  have h2 := Int.lt_floor_add_one x
  rw [abs_le]
  dsimp only
  split_ifs <;> push_cast <;> constructor <;> linarith

theorem roundHalfEven_bounds (x : ℚ) : ⌊x⌋ ≤ roundHalfEven x ∧ roundHalfEven x ≤ ⌊x⌋ + 1 := by
  unfold roundHalfEven
  dsimp only
  split_ifs <;> omega

theorem sciParts_spec (d : Nat) (x : ℚ) (hx : x ≠ 0) :
    10 ^ d ≤ (sciParts d x).1 ∧ (sciParts d x).1 < 10 ^ (d + 1) ∧
    |((sciParts d x).1 : ℚ) * 10 ^ ((sciParts d x).2 - d) - (|x|)| * (2 * 10 ^ d) ≤ |x| ∧
    Int.log 10 |x| ≤ (sciParts d x).2 ∧ (sciParts d x).2 ≤ Int.log 10 |x| + 1 := by
  have ha : 0 < |x| := abs_pos.mpr hx
  set e := Int.log 10 |x| with he
  have l1 : (10 : ℚ) ^ e ≤ |x| := by
    have := Int.zpow_log_le_self (b := 10) (by norm_num) ha
    simpa using this
  have l2 : |x| < (10 : ℚ) ^ (e + 1) := by
    have := Int.lt_zpow_succ_log_self (b := 10) (by norm_num) |x|
    simpa using this
  set y := |x| * (10 : ℚ) ^ ((d : Int) - e) with hy
  have p0 : (0 : ℚ) < 10 ^ ((d : Int) - e) := by positivity
  have y1 : (10 : ℚ) ^ d ≤ y := by
    have : (10 : ℚ) ^ e * 10 ^ ((d : Int) - e) = 10 ^ d := by
      rw [← zpow_add₀ (by norm_num)]
      rw [show e + ((d : Int) - e) = d by ring, zpow_natCast]
    rw [← this]
    exact mul_le_mul_of_nonneg_right l1 p0.le
  have y2 : y < (10 : ℚ) ^ (d + 1) := by
    have : (10 : ℚ) ^ (e + 1) * 10 ^ ((d : Int) - e) = 10 ^ (d + 1) := by
      rw [← zpow_add₀ (by norm_num)]
      rw [show e + 1 + ((d : Int) - e) = ((d + 1 : Nat) : Int) by push_cast; ring, zpow_natCast]
    rw [← this]
    exact mul_lt_mul_of_pos_right l2 p0
  have f1 : ((10 ^ d : Nat) : Int) ≤ ⌊y⌋ := by
    rw [Int.le_floor]; push_cast; exact y1
  have f2 : ⌊y⌋ < ((10 ^ (d + 1) : Nat) : Int) := by
    rw [Int.floor_lt]; push_cast; exact y2
  obtain ⟨b1, b2⟩ := roundHalfEven_bounds y
  have hc := roundHalfEven_close y
  have hz : (((roundHalfEven y).toNat : Nat) : Int) = roundHalfEven y := Int.toNat_of_nonneg (by omega)
  have hq : (((roundHalfEven y).toNat : Nat) : ℚ) = (roundHalfEven y : ℚ) := by exact_mod_cast hz
  have back : ∀ m : ℚ, |m - y| ≤ 1 / 2 → |m * 10 ^ (e - (d : Int)) - (|x|)| * (2 * 10 ^ d) ≤ |x| := by
    intro m hm
    have q0 : (0 : ℚ) < 10 ^ (e - (d : Int)) := by positivity
    have hyx : y * 10 ^ (e - (d : Int)) = |x| := by
      rw [hy, mul_assoc, ← zpow_add₀ (by norm_num)]
      rw [show (d : Int) - e + (e - d) = 0 by ring, zpow_zero, mul_one]
    have : m * 10 ^ (e - (d : Int)) - |x| = (m - y) * 10 ^ (e - (d : Int)) := by rw [sub_mul, hyx]
    rw [this, abs_mul, abs_of_pos q0]
    have hd : (10 : ℚ) ^ (e - (d : Int)) * 10 ^ d = 10 ^ e := by
      rw [← zpow_natCast, ← zpow_add₀ (by norm_num)]
      congr 1; ring
    calc |m - y| * 10 ^ (e - (d : Int)) * (2 * 10 ^ d) = (|m - y| * 2) * (10 ^ (e - (d : Int)) * 10 ^ d) := by ring
      _ ≤ 1 * 10 ^ e := by
        rw [hd]
        exact mul_le_mul_of_nonneg_right (by linarith) (by positivity)
      _ ≤ |x| := by rw [one_mul]; exact l1
  have hdef : sciParts d x = if (roundHalfEven y).toNat = 10 ^ (d + 1) then (10 ^ d, e + 1) else ((roundHalfEven y).toNat, e) := by
    unfold sciParts
    rw [if_neg hx]
  rw [hdef]
  split
  · rename_i hm
    refine ⟨le_refl _, Nat.pow_lt_pow_right (by norm_num) (by omega), ?_, by dsimp only; omega, le_refl _⟩
    dsimp only
    have := back (10 ^ (d + 1)) (by
      have : ((10 : ℚ) ^ (d + 1)) = (roundHalfEven y : ℚ) := by rw [← hq, hm]; push_cast; rfl
      rw [this]; exact hc)
    have e2 : (10 : ℚ) ^ (d + 1) * 10 ^ (e - (d : Int)) = ((10 ^ d : Nat) : ℚ) * 10 ^ (e + 1 - (d : Int)) := by
      push_cast
      rw [← zpow_natCast, ← zpow_natCast, ← zpow_add₀ (by norm_num), ← zpow_add₀ (by norm_num)]
      congr 1; push_cast; ring
    rw [e2] at this
    exact this
  · rename_i hm
    refine ⟨by dsimp only; omega, by dsimp only; omega, ?_, le_refl _, by dsimp only; omega⟩
    dsimp only
    rw [hq]
    exact back _ hc

theorem fixedDigits_length : ∀ k m, (fixedDigits k m).length = k := by
  intro k
  induction k with
  | zero => intro m; rfl
  | succ k ih => intro m; simp [fixedDigits, ih]

theorem fixedDigits_digit : ∀ k m, ∀ c ∈ fixedDigits k m, isDigit c = true := by
  intro k
  induction k with
  | zero => intro m c hc; cases hc
  | succ k ih =>
    intro m c hc
    rw [fixedDigits, List.mem_append, List.mem_singleton] at hc
    rcases hc with hc | rfl
    · exact ih _ c hc
    · have h : m % 10 < 10 := Nat.mod_lt _ (by norm_num)
      interval_cases m % 10 <;> decide

theorem intOf_snoc (s : Str) (c : Char) : intOf (s ++ [c]) = 10 * intOf s + digitVal c := by
  unfold intOf
  rw [List.foldl_append]
  rfl

theorem intOf_fixed : ∀ k m, intOf (fixedDigits k m) = m % 10 ^ k := by
  intro k
  induction k with
  | zero => intro m; rw [Nat.pow_zero, Nat.mod_one]; rfl
  | succ k ih =>
    intro m
    rw [fixedDigits, intOf_snoc, ih]
    have h : digitVal (Nat.digitChar (m % 10)) = m % 10 := by
      have h : m % 10 < 10 := Nat.mod_lt _ (by norm_num)
      interval_cases m % 10 <;> rfl
    rw [h, pow_succ, mul_comm (10 ^ k) 10, Nat.mod_mul]
    ring

theorem intOf_append (s t : Str) : intOf (s ++ t) = intOf s * 10 ^ t.length + intOf t := by
  induction t using List.reverseRecOn with
  | nil => simp [intOf]
  | append_singleton t c ih =>
    rw [← List.append_assoc, intOf_snoc, ih, intOf_snoc, List.length_append, List.length_singleton, pow_succ]
    ring

theorem intOf_zfill (w : Nat) (s : Str) : intOf (zfill w s) = intOf s := by
  unfold zfill
  rw [intOf_append]
  have : ∀ n, intOf (List.replicate n '0') = 0 := by
    intro n
    induction n with
    | zero => rfl
    | succ n ih => rw [List.replicate_succ', intOf_snoc, ih]; rfl
  rw [this]; simp

theorem span_digits {a b : Str} (ha : ∀ c ∈ a, isDigit c = true) (hb : ∀ c, b.head? = some c → isDigit c = false) :
    (a ++ b).takeWhile isDigit = a ∧ (a ++ b).dropWhile isDigit = b := by
  induction a with
  | nil =>
    cases b with
    | nil => exact ⟨rfl, rfl⟩
    | cons c b => simp [hb c rfl]
  | cons c a ih =>
    obtain ⟨h1, h2⟩ := ih (fun d hd => ha d (by simp [hd]))
    have hc := ha c (by simp)
    simp [hc, h1, h2]

/-- The exact value that is written. -/
def sciValue (d : Nat) (x : ℚ) : ℚ :=
  (if x < 0 then -1 else 1) * (((sciParts d x).1 : ℚ) * 10 ^ ((sciParts d x).2 - d))

theorem sciParts_lt (d : Nat) (x : ℚ) : (sciParts d x).1 < 10 ^ (d + 1) := by
  by_cases hx : x = 0
  · unfold sciParts; rw [if_pos hx]; positivity
  · exact (sciParts_spec d x hx).2.1

theorem readSci_sciText (d : Nat) (x : ℚ) : readSci (sciText d x) = some (sciValue d x) := by
  have hlt := sciParts_lt d x
  unfold sciValue sciText
  generalize sciParts d x = p at hlt
  obtain ⟨m, e⟩ := p
  dsimp only at hlt ⊢
  set neg : Bool := decide (x < 0) with hneg
  have hz : ∀ c ∈ zfill 2 (Nat.toDigits 10 e.natAbs), isDigit c = true := by
    intro c hc
    unfold zfill at hc
    rcases List.mem_append.mp hc with hc | hc
    · rw [List.eq_of_mem_replicate hc]; decide
    · exact digits_toDigits _ c hc
  have hzne : zfill 2 (Nat.toDigits 10 e.natAbs) ≠ [] := by
    unfold zfill
    simp [Nat.toDigits_ne_nil]
  have hall : (zfill 2 (Nat.toDigits 10 e.natAbs)).all isDigit = true := List.all_eq_true.mpr hz
  set A := fixedDigits 1 (m / 10 ^ d) with hA
  set B := fixedDigits d m with hB
  set Z := zfill 2 (Nat.toDigits 10 e.natAbs) with hZ
  have hA1 : A.length = 1 := fixedDigits_length _ _
  have hAd : ∀ c ∈ A, isDigit c = true := fixedDigits_digit _ _
  have hBd : ∀ c ∈ B, isDigit c = true := fixedDigits_digit _ _
  have hval : intOf (A ++ B) = m := by
    rw [intOf_append, hA, hB, intOf_fixed, intOf_fixed, fixedDigits_length, Nat.pow_one]
    have : m / 10 ^ d < 10 := by
      rw [Nat.div_lt_iff_lt_mul (by positivity)]
      rw [pow_succ] at hlt; linarith
    rw [Nat.mod_eq_of_lt this]
    have := Nat.div_add_mod m (10 ^ d)
    rw [mul_comm]; exact this
  have hzv : intOf Z = e.natAbs := by rw [hZ, intOf_zfill, intOf_toDigits]
  have hBl : B.length = d := fixedDigits_length _ _
  obtain ⟨a0, hA0⟩ := List.length_eq_one_iff.mp hA1
  have ha0 : isDigit a0 = true := hAd a0 (by rw [hA0]; simp)
  have ha0n : a0 ≠ '-' := by rintro rfl; revert ha0; decide
  set tail : Str := '.' :: B ++ 'e' :: (if e < 0 then '-' else '+') :: Z with htail
  have t1 := span_digits (a := A) (b := tail) hAd (by intro c hc; rw [htail] at hc; cases hc; decide)
  have t2 := span_digits (a := B) (b := 'e' :: (if e < 0 then '-' else '+') :: Z) hBd (by intro c hc; cases hc; decide)
  have hsrc : (if x < 0 then ['-'] else []) ++ A ++ '.' :: B ++ 'e' :: (if e < 0 then '-' else '+') :: Z
      = (if x < 0 then ['-'] else []) ++ (A ++ tail) := by simp [htail]
  rw [hsrc]
  have main : readUnsigned (A ++ tail) = some ((m : ℚ) * 10 ^ (e - (d : Int))) := by
    unfold readUnsigned
    dsimp only
    rw [t1.1, t1.2]
    have hd1 : tail.drop 1 = B ++ 'e' :: (if e < 0 then '-' else '+') :: Z := by simp [htail]
    rw [hd1, t2.1, t2.2]
    rw [if_neg (by simp [htail]), if_neg (by simp)]
    rw [if_neg (by simp [hzne, hall])]
    rw [hval, hBl]
    have : (if (List.drop 1 ('e' :: (if e < 0 then '-' else '+') :: Z)).head? = some '-' then
        -(intOf (List.drop 2 ('e' :: (if e < 0 then '-' else '+') :: Z)) : Int)
        else (intOf (List.drop 2 ('e' :: (if e < 0 then '-' else '+') :: Z)) : Int)) = e := by
      have : List.drop 2 ('e' :: (if e < 0 then '-' else '+') :: Z) = Z := rfl
      rw [this, hzv]
      by_cases he : e < 0
      · rw [if_pos (by simp [he])]; omega
      · rw [if_neg (by simp [he])]; omega
    rw [this]
  unfold readSci
  by_cases hx : x < 0
  · rw [if_pos hx, if_pos (by simp), if_pos hx]
    have : (['-'] ++ (A ++ tail)).drop 1 = A ++ tail := rfl
    rw [this, main]
    simp
  · rw [if_neg hx, List.nil_append, if_neg (by rw [hA0]; simp [ha0n]), main, if_neg hx, one_mul]

theorem sciValue_close (d : Nat) (x : ℚ) : CloseTo d x (sciValue d x) := by
  unfold CloseTo sciValue
  by_cases hx : x = 0
  · subst hx
    simp [sciParts]
  obtain ⟨-, -, h, -⟩ := sciParts_spec d x hx
  by_cases hn : x < 0
  · rw [if_pos hn]
    rw [abs_of_neg hn] at h ⊢
    rw [show (-1 : ℚ) * (((sciParts d x).1 : ℚ) * 10 ^ ((sciParts d x).2 - d)) - x = -(((sciParts d x).1 : ℚ) * 10 ^ ((sciParts d x).2 - d) - -x) by ring, abs_neg]
    exact h
  · rw [if_neg hn, one_mul]
    rw [abs_of_nonneg (not_lt.mp hn)] at h ⊢
    exact h

/-- The text of a number in the range of machine numbers has at most `d + 8` characters. -/
theorem sciText_length (d : Nat) (x : ℚ) (hx : InRange x) : (sciText d x).length ≤ d + 8 := by
  have he : (sciParts d x).2.natAbs < 10 ^ 3 := by
    rcases hx with rfl | ⟨h1, h2⟩
    · simp [sciParts]
    · have hx0 : x ≠ 0 := by
        rintro rfl
        rw [abs_zero] at h1
        exact absurd h1 (not_le.mpr (by positivity))
      obtain ⟨-, -, -, e1, e2⟩ := sciParts_spec d x hx0
      have ha : 0 < |x| := abs_pos.mpr hx0
      have l1 : (-400 : Int) ≤ Int.log 10 |x| := by
        rw [← Int.zpow_le_iff_le_log (b := 10) (by norm_num) ha]
        simpa using h1
      have l2 : Int.log 10 |x| < 400 := by
        rw [← Int.lt_zpow_iff_log_lt (b := 10) (by norm_num) ha]
        simpa using h2
      omega
  unfold sciText
  generalize sciParts d x = p at he
  obtain ⟨m, e⟩ := p
  dsimp only at he ⊢
  have h3 : (Nat.toDigits 10 e.natAbs).length ≤ 3 := (Nat.length_toDigits_le_iff (by norm_num) (by norm_num)).mpr he
  have h4 : (zfill 2 (Nat.toDigits 10 e.natAbs)).length ≤ 3 := by
    unfold zfill
    rw [List.length_append, List.length_replicate]
    omega
  simp only [List.length_append, List.length_cons, fixedDigits_length]
  split <;> simp only [List.length_cons, List.length_nil] <;> omega

theorem sciText_char (d : Nat) (x : ℚ) : ∀ c ∈ sciText d x, isSpace c = false ∧ c ≠ '\n' := by
  intro c hc
  unfold sciText at hc
  generalize sciParts d x = p at hc
  obtain ⟨m, e⟩ := p
  dsimp only at hc
  have hdig : ∀ c, isDigit c = true → isSpace c = false ∧ c ≠ '\n' := by
    intro c hc
    refine ⟨?_, by rintro rfl; revert hc; decide⟩
    rw [isDigit_iff] at hc
    rw [Bool.eq_false_iff, Ne, isSpace_iff]
    omega
  simp only [List.mem_append, List.mem_cons] at hc
  rcases hc with ((hc | hc) | rfl | hc) | rfl | rfl | hc
  · split at hc
    · rw [List.mem_singleton] at hc; subst hc; decide
    · cases hc
  · exact hdig c (fixedDigits_digit _ _ c hc)
  · decide
  · exact hdig c (fixedDigits_digit _ _ c hc)
  · decide
  · split <;> decide
  · unfold zfill at hc
    rcases List.mem_append.mp hc with hc | hc
    · rw [List.eq_of_mem_replicate hc]; decide
    · exact hdig c (digits_toDigits _ c hc)

theorem sciText_ne (d : Nat) (x : ℚ) : sciText d x ≠ [] := by
  intro h
  have := congrArg List.length h
  unfold sciText at this
  simp at this

/-! ### Rows -/

/-- A name that can be read back: no line break, no blank at the end. -/
structure PlainName (s : Str) : Prop where
  line : '\n' ∉ s
  last : ∀ c, s.getLast? = some c → isSpace c = false

theorem rstrip_ljust {s : Str} (w : Nat) (h : ∀ c, s.getLast? = some c → isSpace c = false) : rstripSpec (ljust w s) = s := by
  unfold rstripSpec ljust
  rw [List.reverse_append, List.reverse_replicate]
  have : ∀ k, (List.replicate k ' ' ++ s.reverse).dropWhile isSpace = s.reverse := by
    intro k
    induction k with
    | zero =>
      rw [List.replicate_zero, List.nil_append]
      cases hs : s.reverse with
      | nil => rfl
      | cons c r =>
        have hc := h c (by rw [← List.head?_reverse, hs]; rfl)
        simp [hc]
    | succ k ih =>
      rw [List.replicate_succ, List.cons_append, List.dropWhile_cons_of_pos (by decide)]
      exact ih
  rw [this, List.reverse_reverse]

theorem ljust_length {w : Nat} {s : Str} (h : s.length ≤ w) : (ljust w s).length = w := by
  unfold ljust
  rw [List.length_append, List.length_replicate]
  omega

theorem ljust_line {w : Nat} {s : Str} (h : '\n' ∉ s) : '\n' ∉ ljust w s := by
  unfold ljust
  rw [List.mem_append]
  rintro (h' | h')
  · exact h h'
  · exact absurd (List.eq_of_mem_replicate h') (by decide)

theorem zfill_digit (w n : Nat) : ∀ c ∈ zfill w (Nat.toDigits 10 n), isDigit c = true := by
  intro c hc
  unfold zfill at hc
  rcases List.mem_append.mp hc with hc | hc
  · rw [List.eq_of_mem_replicate hc]; decide
  · exact digits_toDigits _ c hc

theorem digit_space {c : Char} (hc : isDigit c = true) : isSpace c = false ∧ c ≠ '\n' := by
  refine ⟨?_, by rintro rfl; revert hc; decide⟩
  rw [isDigit_iff] at hc
  rw [Bool.eq_false_iff, Ne, isSpace_iff]
  omega

/-- A row without its line break. -/
def rowLine (w : Nat) (p : (Str × ℚ) × Nat) : Str :=
  ' ' :: (ljust 10 (zfill 2 (Nat.toDigits 10 p.2)) ++ (ljust w p.1.1 ++ ljust 30 (sciText 16 p.1.2)))

theorem indexRow_eq (w : Nat) (p : (Str × ℚ) × Nat) : indexRow w p = endLine (rowLine w p) := by
  unfold indexRow rowLine endLine
  simp

theorem readRow_line {w : Nat} {name : Str} {x : ℚ} {i : Nat} (hn : PlainName name) (hx : InRange x) (hi : i < 10 ^ 10) :
    readRow (rowLine w ((name, x), i)) = some (i, name, sciValue 16 x) := by
  have hz : (zfill 2 (Nat.toDigits 10 i)).length ≤ 10 := by
    have := (Nat.length_toDigits_le_iff (b := 10) (n := i) (k := 10) (by norm_num) (by norm_num)).mpr hi
    unfold zfill
    rw [List.length_append, List.length_replicate]
    omega
  have h1 := ljust_length hz
  have h2 : (ljust 30 (sciText 16 x)).length = 30 := ljust_length ((sciText_length 16 x hx).trans (by norm_num))
  unfold readRow rowLine
  dsimp only
  set Z := ljust 10 (zfill 2 (Nat.toDigits 10 i)) with hZ
  set V := ljust 30 (sciText 16 x) with hV
  set N := ljust w name with hN
  have d1 : (' ' :: (Z ++ (N ++ V))).drop 1 = Z ++ (N ++ V) := rfl
  rw [d1, List.take_left' h1, List.drop_left' h1]
  have d2 : (N ++ V).length - 30 = N.length := by rw [List.length_append, h2]; omega
  rw [d2, List.drop_left' rfl, List.take_left' rfl]
  rw [hV, rstrip_ljust 30 (fun c hc => (sciText_char 16 x c (List.mem_of_getLast? hc)).1), readSci_sciText]
  rw [hN, rstrip_ljust w hn.last, hZ, rstrip_ljust 10 (fun c hc => (digit_space (zfill_digit _ _ c (List.mem_of_getLast? hc))).1)]
  rw [intOf_zfill, intOf_toDigits]
  rfl

theorem rowLine_line {w : Nat} {name : Str} {x : ℚ} {i : Nat} (hn : PlainName name) : '\n' ∉ rowLine w ((name, x), i) := by
  unfold rowLine
  rw [List.mem_cons, List.mem_append, List.mem_append]
  rintro (h | h | h | h)
  · exact absurd h (by decide)
  · exact ljust_line (fun h => (digit_space (zfill_digit _ _ _ h)).2 rfl) h
  · exact ljust_line hn.line h
  · exact ljust_line (fun h => (sciText_char 16 x _ h).2 rfl) h

/-! ### Whole tables -/

/-- Rows as read back: numbered, with names unchanged and numbers to seventeen digits. -/
def ShowsRows (items : List (Str × ℚ)) (rows : List (Nat × Str × ℚ)) : Prop :=
  rows.length = items.length ∧ ∀ (i : Nat) name x, items[i]? = some (name, x) → ∃ y, rows[i]? = some (i, name, y) ∧ CloseTo 16 x y

theorem readTable_indexTable {title second third : Str} {w dashes : Nat} {names : List Str} {xs : List ℚ}
    (ht : '\n' ∉ title) (h2 : '\n' ∉ second) (h3 : '\n' ∉ third) (hd : 0 < dashes)
    (hn : ∀ s ∈ names, PlainName s) (hx : ∀ x ∈ xs, InRange x) (hl : names.length ≤ 10 ^ 10) :
    ∃ rows, readTable (indexTable title second third w dashes names xs) = some rows ∧ ShowsRows (names.zip xs) rows := by
  have hrule : '\n' ∉ (List.replicate dashes '-' : Str) := fun h => absurd (List.eq_of_mem_replicate h) (by decide)
  have hhead : '\n' ∉ (' ' :: (ljust 10 (str! "index") ++ (ljust w second ++ ljust 30 third)) : Str) := by
    rw [List.mem_cons, List.mem_append, List.mem_append]
    rintro (h | h | h | h)
    · exact absurd h (by decide)
    · exact ljust_line (by decide) h
    · exact ljust_line h2 h
    · exact ljust_line h3 h
  have hsplit : ∀ (l : List ((Str × ℚ) × Nat)), (∀ p ∈ l, PlainName p.1.1) → splitOn '\n' (l.flatMap (indexRow w) ++ (List.replicate dashes '-' ++ ['\n']))
      = l.map (rowLine w) ++ [List.replicate dashes '-', []] := by
    intro l hl
    induction l with
    | nil =>
      rw [List.flatMap_nil, List.nil_append, splitOn_append hrule]
      rfl
    | cons p l ih =>
      rw [List.flatMap_cons, indexRow_eq, List.append_assoc, splitOn_endLine (rowLine_line (hl p (by simp))), ih (fun q hq => hl q (by simp [hq]))]
      rfl
  have hlines : splitOn '\n' (indexTable title second third w dashes names xs) =
      title :: [] :: (' ' :: (ljust 10 (str! "index") ++ (ljust w second ++ ljust 30 third))) :: List.replicate dashes '-' ::
        ((names.zip xs).zipIdx.map (rowLine w) ++ [List.replicate dashes '-', []]) := by
    have e : indexTable title second third w dashes names xs =
        title ++ '\n' :: ([] ++ '\n' :: ((' ' :: (ljust 10 (str! "index") ++ (ljust w second ++ ljust 30 third))) ++ '\n' ::
          (List.replicate dashes '-' ++ '\n' :: ((names.zip xs).zipIdx.flatMap (indexRow w) ++ (List.replicate dashes '-' ++ ['\n']))))) := by
      unfold indexTable
      simp
    rw [e, splitOn_append ht, splitOn_append (by simp), splitOn_append hhead, splitOn_append hrule, hsplit]
    intro p hp
    have := List.fst_mem_of_mem_zipIdx hp
    exact hn _ (List.of_mem_zip this).1
  have htake : ((splitOn '\n' (indexTable title second third w dashes names xs)).drop 4).takeWhile (fun l => l.head? ≠ some '-') =
      (names.zip xs).zipIdx.map (rowLine w) := by
    rw [hlines]
    show List.takeWhile _ ((names.zip xs).zipIdx.map (rowLine w) ++ [List.replicate dashes '-', []]) = _
    rw [List.takeWhile_append_of_pos]
    · rw [List.takeWhile_cons_of_neg, List.append_nil]
      obtain ⟨k, rfl⟩ : ∃ k, dashes = k + 1 := ⟨dashes - 1, by omega⟩
      simp [List.replicate_succ]
    · intro l hl
      obtain ⟨p, -, rfl⟩ := List.mem_map.mp hl
      simp [rowLine]
  refine ⟨(names.zip xs).zipIdx.map fun p => (p.2, p.1.1, sciValue 16 p.1.2), ?_, ?_, ?_⟩
  · unfold readTable
    rw [htake]
    have : ∀ (l : List ((Str × ℚ) × Nat)), (∀ p ∈ l, PlainName p.1.1 ∧ InRange p.1.2 ∧ p.2 < 10 ^ 10) →
        (l.map (rowLine w)).mapM readRow = some (l.map fun p => (p.2, p.1.1, sciValue 16 p.1.2)) := by
      intro l hl
      induction l with
      | nil => rfl
      | cons p l ih =>
        obtain ⟨a, b, c⟩ := hl p (by simp)
        rw [List.map_cons, List.mapM_cons, readRow_line (name := p.1.1) (x := p.1.2) (i := p.2) a b c, ih (fun q hq => hl q (by simp [hq]))]
        rfl
    apply this
    intro p hp
    have h1 := List.of_mem_zip (List.fst_mem_of_mem_zipIdx hp)
    refine ⟨hn _ h1.1, hx _ h1.2, ?_⟩
    have h2 := List.snd_lt_of_mem_zipIdx hp
    rw [List.length_zip] at h2
    omega
  · simp
  · intro i name x hi
    refine ⟨sciValue 16 x, ?_, sciValue_close 16 x⟩
    rw [List.getElem?_map, List.getElem?_zipIdx, hi]
    simp

theorem wordChar_space {c : Char} (hc : isSpChar c = true ∨ isSiteChar c = true ∨ isDigit c = true ∨ c = '_') : isSpace c = false := by
  have hc' : isLetter c = true ∨ isDigit c = true ∨ c.toNat = 95 ∨ c.toNat = 42 ∨ c.toNat = 45 := by
    rcases hc with hc | hc | hc | hc
    · exact (isSpChar_iff c).mp hc
    · rcases (isSiteChar_iff c).mp hc with h | h <;> simp [h]
    · exact .inr (.inl hc)
    · subst hc; exact .inr (.inr (.inl rfl))
  rw [isLetter_iff, isDigit_iff] at hc'
  rw [Bool.eq_false_iff, Ne, isSpace_iff]
  omega

/-- Names of species have no blanks and no line breaks. -/
theorem networkName_chars {rxns : List Str} {n : Network} (h : parseNetwork rxns = .ok n) {name : Str}
    (hm : name ∈ n.gas ∨ name ∈ n.ads) : (∀ c ∈ name, isSpace c = false ∧ c ≠ '\n') ∧ name ≠ [] := by
  obtain ⟨-, h1, h2, -, -, -⟩ := parseNetwork_ok h
  have key : ∀ k, name ∈ namesOf k n.rxns.flatten.flatten → (∀ c ∈ name, isSpace c = false ∧ c ≠ '\n') ∧ name ≠ [] := by
    intro k hn
    obtain ⟨f, hf, -, rfl⟩ := mem_namesOf.mp hn
    obtain ⟨ns, g⟩ := network_good h f hf
    refine ⟨?_, by rw [g.name]; simp⟩
    intro c hc
    have hw : isSpChar c = true ∨ isSiteChar c = true ∨ isDigit c = true ∨ c = '_' := by
      rw [g.name, List.mem_append, List.mem_cons, List.mem_append] at hc
      rcases hc with hc | hc | hc | hc
      · exact .inl (g.sp c hc)
      · exact .inr (.inr (.inr hc))
      · exact .inr (.inr (.inl (g.num c hc)))
      · exact .inr (.inl (g.site c hc))
    exact ⟨wordChar_space hw, (nameChar_of_word hw).2.2⟩
  rcases hm with hm | hm
  · exact key .gas (h2 ▸ hm)
  · exact key .ads (h1 ▸ hm)

theorem networkName_plain {rxns : List Str} {n : Network} (h : parseNetwork rxns = .ok n) {name : Str}
    (hm : name ∈ n.gas ∨ name ∈ n.ads) : PlainName name :=
  ⟨fun hc => ((networkName_chars h hm).1 _ hc).2 rfl, fun c hc => ((networkName_chars h hm).1 c (List.mem_of_getLast? hc)).1⟩

/-! ## C98 tables in the log -/

/-- **C98** A number half way between two texts is shown with the even last digit, as Python does; the exponent goes up if the
digits are all nines. -/
theorem C98_ties (d k : Nat) (e : Int) (h1 : 10 ^ d ≤ k) (h2 : k < 10 ^ (d + 1)) (x : ℚ) (hx : |x| = ((k : ℚ) + 1 / 2) * 10 ^ (e - d)) :
    sciParts d x = if k % 2 = 0 then (k, e) else if k + 1 < 10 ^ (d + 1) then (k + 1, e) else (10 ^ d, e + 1) := by
  have hpos : (0 : ℚ) < 10 ^ (e - d) := by positivity
  have h1' : (10 : ℚ) ^ d ≤ k := by exact_mod_cast h1
  have h2' : (k : ℚ) + 1 ≤ 10 ^ (d + 1) := by exact_mod_cast h2
  have hd : (10 : ℚ) ^ e = 10 ^ d * 10 ^ (e - d) := by
    rw [← zpow_natCast, ← zpow_add₀ (by norm_num)]; congr 1; omega
  have hd1 : (10 : ℚ) ^ (e + 1) = 10 ^ (d + 1) * 10 ^ (e - d) := by
    rw [← zpow_natCast, ← zpow_add₀ (by norm_num)]; congr 1; push_cast; omega
  have hxne : x ≠ 0 := by
    rintro rfl
    rw [abs_zero] at hx
    have : (0 : ℚ) < ((k : ℚ) + 1 / 2) * 10 ^ (e - d) := by positivity
    linarith
  have hlog : Int.log 10 |x| = e := by
    apply le_antisymm
    · apply Int.lt_add_one_iff.mp
      rw [← Int.lt_zpow_iff_log_lt (b := 10) (by norm_num) (abs_pos.mpr hxne)]
      rw [hx]; push_cast; rw [hd1]; gcongr; linarith
    · rw [← Int.zpow_le_iff_le_log (b := 10) (by norm_num) (abs_pos.mpr hxne)]
      rw [hx]; push_cast; rw [hd]; gcongr; linarith
  have hy : |x| * (10 : ℚ) ^ ((d : Int) - e) = k + 1 / 2 := by
    rw [hx, mul_assoc, ← zpow_add₀ (by norm_num)]
    have : e - (d : Int) + ((d : Int) - e) = 0 := by omega
    rw [this, zpow_zero, mul_one]
  have hfl : ⌊((k : ℚ) + 1 / 2)⌋ = (k : Int) := by
    rw [Int.floor_eq_iff]; push_cast; constructor <;> linarith
  have hr : (roundHalfEven ((k : ℚ) + 1 / 2)).toNat = if k % 2 = 0 then k else k + 1 := by
    unfold roundHalfEven
    dsimp only
    rw [hfl]
    push_cast
    rw [if_neg (by linarith), if_neg (by linarith)]
    by_cases hk : k % 2 = 0
    · rw [if_pos (by omega), if_pos hk]; rfl
    · rw [if_neg (by omega), if_neg hk]; rfl
  unfold sciParts
  rw [if_neg hxne]
  dsimp only
  rw [hlog, hy, hr]
  by_cases hk : k % 2 = 0
  · rw [if_pos hk, if_pos hk, if_neg (by omega)]
  · rw [if_neg hk, if_neg hk]
    by_cases hc : k + 1 < 10 ^ (d + 1)
    · rw [if_pos hc, if_neg (by omega)]
    · rw [if_neg hc, if_pos (by omega)]

example : sciText 4 (100005 / 100000) = str! "1.0000e+00" ∧ sciText 4 (100015 / 100000) = str! "1.0002e+00" ∧ sciText 4 (999995 / 1000) = str! "1.0000e+03" ∧
    |(100005 / 100000 : ℚ)| = (((10000 : Nat) : ℚ) + 1 / 2) * 10 ^ ((0 : Int) - (4 : Nat)) := by decide +kernel

/-- **C98** Turnover frequencies: one row for each gas, in order, with the number that the calculation returns for this gas. -/
theorem C98_tof (o : MFOwner ℚ) (k : List ℚ × List ℚ) (cvgs : List ℚ) (hp : parseNetwork o.rxns = .ok o.net) (net : List ℚ)
    (hn : getNetRates o k cvgs = .ok net) (hlen : net.length = o.rxns.length) (hl : o.net.gas.length ≤ 10 ^ 10)
    (hr : ∀ l, getTof o k cvgs = .ok l → ∀ x ∈ l, InRange x) :
    ∃ l rows, getTof o k cvgs = .ok l ∧ readTable (logTof o.net.gas l) = some rows ∧ rows.map (fun r => r.2.1) = o.net.gas ∧
      ∀ (i : Nat) g, o.net.gas[i]? = some g → ∃ x y, getTofOf o k cvgs g = .ok x ∧ rows[i]? = some (i, g, y) ∧ CloseTo 16 x y := by
  obtain ⟨t1, t2, -⟩ := C69_turnover o k cvgs net hp hn hlen
  obtain ⟨rows, r1, r2, r3⟩ := readTable_indexTable (title := str! "Turnover Frequencies:") (second := str! "gas name") (third := str! "TOF") (w := 25)
    (dashes := 60) (names := o.net.gas) (by decide) (by decide) (by decide) (by norm_num) (fun _ hs => networkName_plain hp (.inl hs)) (hr _ t1) hl
  have hzip : ∀ (i : Nat) g, o.net.gas[i]? = some g → (o.net.gas.zip ((o.net.gas ++ o.net.liq).map (production o.net net)))[i]? = some (g, production o.net net g) := by
    intro i g hg
    rw [List.getElem?_zip_eq_some]
    refine ⟨hg, ?_⟩
    rw [List.getElem?_map, List.getElem?_append_left (List.getElem?_eq_some_iff.mp hg).1, hg]
    rfl
  refine ⟨_, rows, t1, r1, ?_, ?_⟩
  · apply List.ext_getElem?
    intro i
    rw [List.getElem?_map]
    rcases e : o.net.gas[i]? with - | g
    · have : rows.length ≤ i := by
        rw [r2, List.length_zip]
        have := List.getElem?_eq_none_iff.mp e
        omega
      rw [List.getElem?_eq_none_iff.mpr this]
      rfl
    · obtain ⟨y, hy, -⟩ := r3 i g _ (hzip i g e)
      rw [hy]
      rfl
  · intro i g hg
    obtain ⟨y, hy, hc⟩ := r3 i g _ (hzip i g hg)
    exact ⟨_, y, t2 g (List.mem_of_getElem? hg), hy, hc⟩

/-- A table of two reactions, and a number with a carry into the next power of ten. -/
example : sciText 4 (-99999 / 1000000000) = str! "-9.9999e-05" ∧ sciText 4 (999999 / 100000) = str! "1.0000e+01" ∧ sciText 2 0 = str! "0.00e+00" ∧
    readSci (str! "-9.9999e-05") = some (-99999 / 1000000000) := by decide +kernel

example : ∃ l rows, getTof exMF ([2, 3, 5], [0, 0, 0]) [1 / 2, 1 / 5] = .ok l ∧ readTable (logTof exMF.net.gas l) = some rows ∧
    rows.map (fun r => r.2.1) = [str! "CO2_g", str! "CO_g", str! "O2_g"] := by
  obtain ⟨l, rows, h1, h2, h3, -⟩ := C98_tof exMF ([2, 3, 5], [0, 0, 0]) [1 / 2, 1 / 5] exMF_ready.parse _ rfl (by decide +kernel) (by decide) (by
    intro l hl
    have : getTof exMF ([2, 3, 5], [0, 0, 0]) [1 / 2, 1 / 5] = .ok [1 / 2, -3 / 10, -27 / 400] := by decide +kernel
    rw [this] at hl
    cases hl
    decide +kernel)
  exact ⟨l, rows, h1, h2, h3⟩

/-- **C98** Steady-state coverages: one row for each adsorbate, in order. -/
theorem C98_coverages (rxns : List Str) (n : Network) (hp : parseNetwork rxns = .ok n) (cvgs : List ℚ) (hx : ∀ x ∈ cvgs, InRange x)
    (hl : n.ads.length ≤ 10 ^ 10) : ∃ rows, readTable (logCoverages n.ads cvgs) = some rows ∧ ShowsRows (n.ads.zip cvgs) rows :=
  readTable_indexTable (by decide) (by decide) (by decide) (by norm_num) (fun _ hs => networkName_plain hp (.inr hs)) hx hl

example : ∃ rows, readTable (logCoverages exMF.net.ads [1 / 3, 2 / 3]) = some rows ∧ ShowsRows [(str! "CO_s", 1 / 3), (str! "O_s", 2 / 3)] rows :=
  C98_coverages exMF.rxns exMF.net exMF_ready.parse [1 / 3, 2 / 3] (by decide +kernel) (by decide)

example : readTable (logCoverages [str! "CO_s", str! "O_s"] [1 / 3, 2 / 3]) =
    some [(0, str! "CO_s", 33333333333333333 / 10 ^ 17), (1, str! "O_s", 66666666666666667 / 10 ^ 17)] := by decide +kernel

/-- **C98** Reversibilities and degrees of rate control: one row for each reaction, in order, with its text. -/
theorem C98_reactions (rxns : List Str) (hr : ∀ r ∈ rxns, PlainName r) (xs : List ℚ) (hx : ∀ x ∈ xs, InRange x)
    (hl : rxns.length ≤ 10 ^ 10) :
    (∃ rows, readTable (logReversibilities rxns xs) = some rows ∧ ShowsRows (rxns.zip xs) rows) ∧
    ∀ gas, '\n' ∉ gas → ∃ rows, readTable (logXRC gas rxns xs) = some rows ∧ ShowsRows (rxns.zip xs) rows := by
  refine ⟨readTable_indexTable (by decide) (by decide) (by decide) (by norm_num) hr hx hl, fun gas hg => ?_⟩
  refine readTable_indexTable ?_ (by decide) (by decide) (by norm_num) hr hx hl
  rw [List.mem_append, List.mem_append]
  rintro ((h | h) | h)
  · exact absurd h (by decide)
  · exact hg h
  · exact absurd h (by decide)

example : ∃ rows, readTable (logReversibilities [str! "CO_g + *_s -> CO_s", str! "O2_g + 2*_s -> 2O_s"] [1 / 3, 10 ^ 20]) = some rows ∧
    ShowsRows [(str! "CO_g + *_s -> CO_s", 1 / 3), (str! "O2_g + 2*_s -> 2O_s", 10 ^ 20)] rows :=
  (C98_reactions [str! "CO_g + *_s -> CO_s", str! "O2_g + 2*_s -> 2O_s"] (by
    intro r hr
    simp only [List.mem_cons, List.not_mem_nil, or_false] at hr
    rcases hr with rfl | rfl <;> exact ⟨by decide, by decide⟩) [1 / 3, 10 ^ 20] (by decide +kernel) (by decide)).1

/-- **C98** The first line of a table says what is in it, for degrees of rate control with the gas they belong to. -/
theorem C98_titles (names : List Str) (xs : List ℚ) (gas : Str) (hg : '\n' ∉ gas) :
    (splitOn '\n' (logTof names xs)).head? = some (str! "Turnover Frequencies:") ∧
    (splitOn '\n' (logReversibilities names xs)).head? = some (str! "Reversibilities:") ∧
    (splitOn '\n' (logCoverages names xs)).head? = some (str! "Steady State Coverages:") ∧
    (splitOn '\n' (logXRC gas names xs)).head? = some (str! "Degree of Rate Control for " ++ gas ++ str! ":") := by
  have key : ∀ (t second third : Str) (w dashes : Nat), '\n' ∉ t → (splitOn '\n' (indexTable t second third w dashes names xs)).head? = some t := by
    intro t second third w dashes ht
    unfold indexTable
    simp only [List.append_assoc, List.cons_append]
    rw [splitOn_append ht]
    rfl
  refine ⟨key _ _ _ _ _ (by decide), key _ _ _ _ _ (by decide), key _ _ _ _ _ (by decide), key _ _ _ _ _ ?_⟩
  rw [List.mem_append, List.mem_append]
  rintro ((h | h) | h)
  · exact absurd h (by decide)
  · exact hg h
  · exact absurd h (by decide)

example : '\n' ∉ str! "CO2_g" := by decide

/-- A row of the table of forward and reverse values: the last twelve characters, the twelve before, the rest. -/
def readRateRow (line : Str) : Option (Str × ℚ × ℚ) :=
  let v := line.drop (line.length - 24)
  match readSci (rstripSpec (v.take 12)), readSci (rstripSpec (v.drop 12)) with
  | some f, some r => some (rstripSpec (line.take (line.length - 24)), f, r)
  | _, _ => none

/-- All rows: after two empty lines, the head and a rule, before the last rule. -/
def readRates (text : Str) : Option (List (Str × ℚ × ℚ)) :=
  ((splitOn '\n' text).drop 4).dropLast.dropLast.mapM readRateRow

theorem readRateRow_line {w : Nat} {name : Str} {f r : ℚ} (hn : PlainName name) (hf : InRange f) (hr : InRange r) :
    readRateRow (ljust w name ++ (ljust 12 (sciText 4 f) ++ ljust 12 (sciText 4 r))) = some (name, sciValue 4 f, sciValue 4 r) := by
  have h1 : (ljust 12 (sciText 4 f)).length = 12 := ljust_length ((sciText_length 4 f hf).trans (by norm_num))
  have h2 : (ljust 12 (sciText 4 r)).length = 12 := ljust_length ((sciText_length 4 r hr).trans (by norm_num))
  unfold readRateRow
  dsimp only
  have d2 : (ljust w name ++ (ljust 12 (sciText 4 f) ++ ljust 12 (sciText 4 r))).length - 24 = (ljust w name).length := by
    simp only [List.length_append, h1, h2]; omega
  rw [d2, List.drop_left' rfl, List.take_left' rfl, List.drop_left' h1, List.take_left' h1]
  rw [rstrip_ljust 12 (fun c hc => (sciText_char 4 f c (List.mem_of_getLast? hc)).1), readSci_sciText]
  rw [rstrip_ljust 12 (fun c hc => (sciText_char 4 r c (List.mem_of_getLast? hc)).1), readSci_sciText]
  rw [rstrip_ljust w hn.last]

theorem longest_spec {l : List Str} {w : Nat} (h : longest l = .ok w) : (∀ s ∈ l, s.length ≤ w) ∧ ∃ s ∈ l, s.length = w := by
  cases l with
  | nil => cases h
  | cons x l =>
    cases h
    have : ∀ (l : List Str) (n : Nat), n ≤ l.foldl (fun n s => max n s.length) n ∧ (∀ s ∈ l, s.length ≤ l.foldl (fun n s => max n s.length) n) ∧
        (l.foldl (fun n s => max n s.length) n = n ∨ ∃ s ∈ l, s.length = l.foldl (fun n s => max n s.length) n) := by
      intro l
      induction l with
      | nil => exact fun n => ⟨le_rfl, fun _ h => absurd h (by simp), .inl rfl⟩
      | cons y l ih =>
        intro n
        obtain ⟨a, b, c⟩ := ih (max n y.length)
        rw [List.foldl_cons]
        refine ⟨(le_max_left _ _).trans a, ?_, ?_⟩
        · intro s hs
          rcases List.mem_cons.mp hs with rfl | hs
          · exact (le_max_right _ _).trans a
          · exact b s hs
        · rcases c with c | ⟨s, hs, c⟩
          · rw [c]
            rcases max_choice n y.length with e | e
            · exact .inl e
            · exact .inr ⟨y, by simp, e.symm⟩
          · exact .inr ⟨s, by simp [hs], c⟩
    obtain ⟨a, b, c⟩ := this l x.length
    refine ⟨?_, ?_⟩
    · intro s hs
      rcases List.mem_cons.mp hs with rfl | hs
      · exact a
      · exact b s hs
    · rcases c with c | ⟨s, hs, c⟩
      · exact ⟨x, by simp, c.symm⟩
      · exact ⟨s, by simp [hs], c⟩

/-- The lines of the table of forward and reverse values. -/
theorem logRates_lines {rxns : List Str} (hne : rxns ≠ []) (hr : ∀ r ∈ rxns, PlainName r) (f r : List ℚ) {fname rname : Str} (h1 : '\n' ∉ fname)
    (h2 : '\n' ∉ rname) : ∃ text w, logRates rxns f r fname rname = .ok text ∧ longest rxns = .ok w ∧
      splitOn '\n' text = [] :: [] :: (ljust (w + 3) (str! "reactions") ++ ljust 12 fname ++ ljust 12 rname) ::
        List.replicate (ljust (w + 3) (str! "reactions") ++ ljust 12 fname ++ ljust 12 rname ++ ['\n']).length '-' ::
        ((rxns.zip (f.zip r)).map (fun p => ljust (w + 3) p.1 ++ (ljust 12 (sciText 4 p.2.1) ++ ljust 12 (sciText 4 p.2.2))) ++
          [List.replicate (ljust (w + 3) (str! "reactions") ++ ljust 12 fname ++ ljust 12 rname ++ ['\n']).length '-', []]) := by
  obtain ⟨w, hw⟩ : ∃ w, longest rxns = .ok w := by
    cases rxns with
    | nil => exact absurd rfl hne
    | cons x l => exact ⟨_, rfl⟩
  set title := ljust (w + 3) (str! "reactions") ++ ljust 12 fname ++ ljust 12 rname with htitle
  set rule : Str := List.replicate (title ++ ['\n']).length '-' with hrule
  set line : Str × ℚ × ℚ → Str := fun p => ljust (w + 3) p.1 ++ (ljust 12 (sciText 4 p.2.1) ++ ljust 12 (sciText 4 p.2.2)) with hline
  have ht : '\n' ∉ title := by
    rw [htitle, List.mem_append, List.mem_append]
    rintro ((h | h) | h)
    · exact ljust_line (by decide) h
    · exact ljust_line h1 h
    · exact ljust_line h2 h
  have hru : '\n' ∉ rule := fun h => absurd (List.eq_of_mem_replicate h) (by decide)
  have hrow : ∀ p, rateRow (w + 3) p = endLine (line p) := by
    intro p
    unfold rateRow endLine
    rw [hline]
    simp
  have hlog : logRates rxns f r fname rname = .ok ([] ++ '\n' :: ([] ++ '\n' :: (title ++ '\n' :: (rule ++ '\n' ::
      ((rxns.zip (f.zip r)).flatMap (rateRow (w + 3)) ++ (rule ++ ['\n'])))))) := by
    unfold logRates
    rw [hw]
    dsimp only [bind, Except.bind, pure, Except.pure]
    rw [hrule, htitle]
    simp
  have hlines : ∀ l : List (Str × ℚ × ℚ), (∀ p ∈ l, PlainName p.1) → splitOn '\n' (l.flatMap (rateRow (w + 3)) ++ (rule ++ ['\n'])) = l.map line ++ [rule, []] := by
    intro l hl
    induction l with
    | nil => rw [List.flatMap_nil, List.nil_append, splitOn_append hru]; rfl
    | cons p l ih =>
      have : '\n' ∉ line p := by
        rw [hline, List.mem_append, List.mem_append]
        rintro (h | h | h)
        · exact ljust_line (hl p (by simp)).line h
        · exact ljust_line (fun h => (sciText_char 4 _ _ h).2 rfl) h
        · exact ljust_line (fun h => (sciText_char 4 _ _ h).2 rfl) h
      rw [List.flatMap_cons, hrow, List.append_assoc, splitOn_endLine this, ih (fun q hq => hl q (by simp [hq]))]
      rfl
  refine ⟨_, w, hlog, hw, ?_⟩
  rw [splitOn_append (by simp), splitOn_append (by simp), splitOn_append ht, splitOn_append hru,
    hlines _ (fun p hp => hr _ (List.of_mem_zip hp).1)]

/-- **C98** Rate constants and rates: one row for each reaction, in order, with its text, the forward and the reverse value
to five digits. -/
theorem C98_rates (rxns : List Str) (hne : rxns ≠ []) (hr : ∀ r ∈ rxns, PlainName r) (f r : List ℚ) (hf : ∀ x ∈ f, InRange x) (hx : ∀ x ∈ r, InRange x)
    (fname rname : Str) (h1 : '\n' ∉ fname) (h2 : '\n' ∉ rname) :
    ∃ text rows, logRates rxns f r fname rname = .ok text ∧ readRates text = some rows ∧ rows.length = (rxns.zip (f.zip r)).length ∧
      ∀ (i : Nat) s a b, rxns[i]? = some s → f[i]? = some a → r[i]? = some b →
        ∃ a' b', rows[i]? = some (s, a', b') ∧ CloseTo 4 a a' ∧ CloseTo 4 b b' := by
  obtain ⟨text, w, hlog, hw, hl⟩ := logRates_lines hne hr f r h1 h2
  set line : Str × ℚ × ℚ → Str := fun p => ljust (w + 3) p.1 ++ (ljust 12 (sciText 4 p.2.1) ++ ljust 12 (sciText 4 p.2.2)) with hline
  have hmem : ∀ p ∈ rxns.zip (f.zip r), PlainName p.1 ∧ InRange p.2.1 ∧ InRange p.2.2 := by
    intro p hp
    have h := List.of_mem_zip hp
    have h' := List.of_mem_zip h.2
    exact ⟨hr _ h.1, hf _ h'.1, hx _ h'.2⟩
  refine ⟨_, (rxns.zip (f.zip r)).map fun p => (p.1, sciValue 4 p.2.1, sciValue 4 p.2.2), hlog, ?_, by simp, ?_⟩
  · unfold readRates
    rw [hl]
    simp only [List.drop_succ_cons, List.drop_zero]
    rw [List.dropLast_append_of_ne_nil (by simp), List.dropLast_append_of_ne_nil (by simp)]
    simp only [List.dropLast_cons_cons, List.dropLast_singleton, List.append_nil]
    have : ∀ l : List (Str × ℚ × ℚ), (∀ p ∈ l, PlainName p.1 ∧ InRange p.2.1 ∧ InRange p.2.2) →
        (l.map line).mapM readRateRow = some (l.map fun p => (p.1, sciValue 4 p.2.1, sciValue 4 p.2.2)) := by
      intro l hl
      induction l with
      | nil => rfl
      | cons p l ih =>
        obtain ⟨a, b, c⟩ := hl p (by simp)
        rw [List.map_cons, List.mapM_cons, readRateRow_line (name := p.1) (f := p.2.1) (r := p.2.2) a b c, ih (fun q hq => hl q (by simp [hq]))]
        rfl
    exact this _ hmem
  · intro i s a b e1 e2 e3
    refine ⟨sciValue 4 a, sciValue 4 b, ?_, sciValue_close 4 a, sciValue_close 4 b⟩
    have : (rxns.zip (f.zip r))[i]? = some (s, a, b) := by
      rw [List.getElem?_zip_eq_some]
      exact ⟨e1, List.getElem?_zip_eq_some.mpr ⟨e2, e3⟩⟩
    rw [List.getElem?_map, this]
    rfl

/-- **C98** The rows of this table are of the same length: the length of the longest text, and 27 for the rest. So the columns stand
below each other. -/
theorem C98_aligned (rxns : List Str) (hne : rxns ≠ []) (hr : ∀ r ∈ rxns, PlainName r) (f r : List ℚ) (hf : ∀ x ∈ f, InRange x) (hx : ∀ x ∈ r, InRange x)
    (fname rname : Str) (h1 : '\n' ∉ fname) (h2 : '\n' ∉ rname) :
    ∃ text m, logRates rxns f r fname rname = .ok text ∧ (∀ s ∈ rxns, s.length ≤ m) ∧ (∃ s ∈ rxns, s.length = m) ∧
      ∀ line ∈ ((splitOn '\n' text).drop 4).dropLast.dropLast, line.length = m + 27 := by
  obtain ⟨text, w, hlog, hw, hl⟩ := logRates_lines hne hr f r h1 h2
  obtain ⟨m1, m2⟩ := longest_spec hw
  refine ⟨text, w, hlog, m1, m2, ?_⟩
  rw [hl]
  simp only [List.drop_succ_cons, List.drop_zero]
  rw [List.dropLast_append_of_ne_nil (by simp), List.dropLast_append_of_ne_nil (by simp)]
  simp only [List.dropLast_cons_cons, List.dropLast_singleton, List.append_nil]
  intro line hline
  obtain ⟨p, hp, rfl⟩ := List.mem_map.mp hline
  have e1 := List.of_mem_zip hp
  have e2 := List.of_mem_zip e1.2
  rw [List.length_append, List.length_append, ljust_length (by have := m1 _ e1.1; omega),
    ljust_length ((sciText_length 4 _ (hf _ e2.1)).trans (by norm_num)), ljust_length ((sciText_length 4 _ (hx _ e2.2)).trans (by norm_num))]

example : ∃ text, logRates [str! "CO_g + *_s -> CO_s", str! "O2_g + 2*_s -> 2O_s"] [123456, 1 / 8] [0, 1] (str! "k_forward") (str! "k_reverse") = .ok text ∧
    readRates text = some [(str! "CO_g + *_s -> CO_s", 123460, 0), (str! "O2_g + 2*_s -> 2O_s", 1 / 8, 1)] :=
  ⟨_, rfl, by decide +kernel⟩

/-- **C98** (refuted) Without reactions there is nothing to write, but writing the table raises. -/
theorem C98_empty_refuted (f r : List ℚ) (fname rname : Str) : logRates [] f r fname rname = .error .IndexError := rfl

/-- The words of a line. -/
def wordsOf (s : Str) : List Str := (splitOn ' ' s).filter (· ≠ [])

theorem words_pad (k : Nat) (s : Str) : wordsOf (List.replicate k ' ' ++ s) = wordsOf s := by
  induction k with
  | zero => rfl
  | succ k ih =>
    rw [List.replicate_succ, List.cons_append]
    have : wordsOf (' ' :: (List.replicate k ' ' ++ s)) = wordsOf (List.replicate k ' ' ++ s) := by
      unfold wordsOf
      have := splitOn_append (c := ' ') (a := []) (b := List.replicate k ' ' ++ s) (by simp)
      rw [List.nil_append] at this
      rw [this]
      simp
    rw [this, ih]

theorem words_word {a s : Str} (ha : ' ' ∉ a) (hne : a ≠ []) (k : Nat) : wordsOf (a ++ (List.replicate (k + 1) ' ' ++ s)) = a :: wordsOf s := by
  rw [List.replicate_succ, List.cons_append]
  have : wordsOf (a ++ ' ' :: (List.replicate k ' ' ++ s)) = a :: wordsOf (List.replicate k ' ' ++ s) := by
    unfold wordsOf
    rw [splitOn_append ha]
    simp [hne]
  rw [this, words_pad]

/-- **C98** For names of species shorter than the column, the words of a row are the index, the name and the number. -/
theorem C98_words_partial (w : Nat) (name : Str) (x : ℚ) (i : Nat) (hb : ' ' ∉ name) (hne : name ≠ []) (hw : name.length < w) (hx : InRange x)
    (hi : i < 10 ^ 9) : wordsOf (rowLine w ((name, x), i)) = [zfill 2 (Nat.toDigits 10 i), name, sciText 16 x] := by
  have hz : (zfill 2 (Nat.toDigits 10 i)).length ≤ 9 := by
    have := (Nat.length_toDigits_le_iff (b := 10) (n := i) (k := 9) (by norm_num) (by norm_num)).mpr hi
    unfold zfill
    rw [List.length_append, List.length_replicate]
    omega
  have hv : (sciText 16 x).length < 30 := (sciText_length 16 x hx).trans_lt (by norm_num)
  have pad : ∀ {w : Nat} {s : Str}, s.length < w → ∃ k, ljust w s = s ++ List.replicate (k + 1) ' ' := by
    intro w s h
    exact ⟨w - s.length - 1, by unfold ljust; congr 2; omega⟩
  obtain ⟨k1, e1⟩ := pad (w := 10) (s := zfill 2 (Nat.toDigits 10 i)) (by omega)
  obtain ⟨k2, e2⟩ := pad hw
  obtain ⟨k3, e3⟩ := pad hv
  unfold rowLine
  dsimp only
  rw [e1, e2, e3, List.append_assoc, List.append_assoc]
  have : ∀ t : Str, ' ' :: t = List.replicate 1 ' ' ++ t := fun t => rfl
  rw [this, words_pad]
  rw [words_word (fun h => absurd (digit_space (zfill_digit _ _ _ h)).1 (by decide)) (by unfold zfill; simp [Nat.toDigits_ne_nil])]
  rw [words_word hb hne]
  have := words_word (a := sciText 16 x) (s := []) (fun h => absurd (sciText_char 16 x _ h).1 (by decide)) (sciText_ne 16 x) k3
  rw [List.append_nil] at this
  rw [this]
  rfl

example : wordsOf (rowLine 25 ((str! "CO_s", 1 / 2), 7)) = [str! "07", str! "CO_s", str! "5.0000000000000000e-01"] := by decide +kernel

/-- **C98** (refuted) A name as long as the column runs into the number: the row has two words, and the number cannot be told
from the name without counting characters. -/
theorem C98_words_refuted : ∃ name, PlainName name ∧ ' ' ∉ name ∧ name.length = 25 ∧
    wordsOf (rowLine 25 ((name, 1 / 2), 0)) = [str! "00", name ++ str! "5.0000000000000000e-01"] :=
  ⟨str! "CH3CH2CH2CH2CH2CH2CH2CH_s", ⟨by decide, by decide⟩, by decide, by decide, by decide +kernel⟩

/-! ### The theorems at these cases -/

example := C98_rates [str! "CO_g + *_s -> CO_s", str! "O2_g + 2*_s -> 2O_s"] (by simp) (by
    intro r hr
    simp only [List.mem_cons, List.not_mem_nil, or_false] at hr
    rcases hr with rfl | rfl <;> exact ⟨by decide, by decide⟩) [123456, 1 / 8] [0, 1] (by decide +kernel) (by decide +kernel) (str! "k_forward") (str! "k_reverse") (by decide) (by decide)

example := C98_aligned [str! "CO_g + *_s -> CO_s", str! "O2_g + 2*_s -> 2O_s"] (by simp) (by
    intro r hr
    simp only [List.mem_cons, List.not_mem_nil, or_false] at hr
    rcases hr with rfl | rfl <;> exact ⟨by decide, by decide⟩) [123456, 1 / 8] [0, 1] (by decide +kernel) (by decide +kernel) (str! "k_forward") (str! "k_reverse") (by decide) (by decide)

example := C98_ties 4 10000 0 (by decide) (by decide) (100005 / 100000) (by decide +kernel)

example := C98_words_partial 25 (str! "CO_s") (1 / 2) 7 (by decide) (by decide) (by decide) (by decide +kernel) (by decide)

end Verif
