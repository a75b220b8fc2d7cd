import Verif.Py.Basic
namespace Verif

theorem char_le_iff (a b : Char) : (a ≤ b) ↔ a.toNat ≤ b.toNat := by
  exact Iff.rfl

theorem char_eq_iff (a b : Char) : a = b ↔ a.toNat = b.toNat := by
  constructor
  · rintro rfl; rfl
  · intro h; exact Char.ext (UInt32.toNat_inj.mp h)

theorem isDigit_iff (c : Char) : isDigit c = true ↔ 48 ≤ c.toNat ∧ c.toNat ≤ 57 := by
  simp [isDigit, char_le_iff]

theorem isLetter_iff (c : Char) : isLetter c = true ↔
    (97 ≤ c.toNat ∧ c.toNat ≤ 122) ∨ (65 ≤ c.toNat ∧ c.toNat ≤ 90) := by
  simp [isLetter, char_le_iff]

theorem isUpper_iff (c : Char) : isUpper c = true ↔ 65 ≤ c.toNat ∧ c.toNat ≤ 90 := by
  simp [isUpper, char_le_iff]

theorem isLower_iff (c : Char) : isLower c = true ↔ 97 ≤ c.toNat ∧ c.toNat ≤ 122 := by
  simp [isLower, char_le_iff]

theorem isSpace_iff (c : Char) : isSpace c = true ↔
    c.toNat = 32 ∨ (9 ≤ c.toNat ∧ c.toNat ≤ 13) ∨ (28 ≤ c.toNat ∧ c.toNat ≤ 31) := by
  simp [isSpace, char_eq_iff, or_assoc]

theorem isWord_iff (c : Char) : isWord c = true ↔
    isLetter c = true ∨ isDigit c = true ∨ c.toNat = 95 := by
  simp [isWord, char_eq_iff, or_assoc]

theorem isDigit_of_core {c : Char} (h : c.isDigit = true) : isDigit c = true := by
  rw [isDigit_iff]
  simp [Char.isDigit, UInt32.le_iff_toNat_le] at h
  exact h

theorem digits_toDigits (n : Nat) : ∀ c ∈ Nat.toDigits 10 n, isDigit c = true :=
  fun _ hc => isDigit_of_core (Nat.isDigit_of_mem_toDigits (by decide) (by decide) hc)

theorem intOf_toDigits (n : Nat) : intOf (Nat.toDigits 10 n) = n := by
  have h := @Nat.ofDigitChars_ten_toDigits n
  rw [Nat.ofDigitChars_eq_foldl] at h
  exact h

/-! ### strip, split, join -/

theorem dropWhile_eq_self {p : Char → Bool} {s : Str} (h : ∀ c, s.head? = some c → p c = false) :
    s.dropWhile p = s := by
  cases s with
  | nil => rfl
  | cons c cs => simp [List.dropWhile, h c rfl]

/-- Text that neither starts nor ends with a blank. -/
def Trim (s : Str) : Prop :=
  (∀ c, s.head? = some c → isSpace c = false) ∧ (∀ c, s.getLast? = some c → isSpace c = false)

theorem strip_trim {s : Str} (h : Trim s) : strip s = s := by
  unfold strip
  rw [dropWhile_eq_self h.1, dropWhile_eq_self (by simpa using h.2), List.reverse_reverse]

theorem dropWhile_append_of_all {p : Char → Bool} {a b : Str} (ha : ∀ c ∈ a, p c = true) :
    (a ++ b).dropWhile p = b.dropWhile p := by
  induction a with
  | nil => rfl
  | cons c a ih =>
    simp only [List.cons_append, List.dropWhile, ha c (by simp)]
    exact ih (fun d hd => ha d (by simp [hd]))

theorem dropWhile_all {p : Char → Bool} {a : Str} (ha : ∀ c ∈ a, p c = true) :
    a.dropWhile p = [] := by
  simpa using dropWhile_append_of_all (b := []) ha

theorem strip_pad {a s b : Str} (ha : ∀ c ∈ a, isSpace c = true) (hb : ∀ c ∈ b, isSpace c = true)
    (h : Trim s) : strip (a ++ s ++ b) = s := by
  unfold strip
  rw [List.append_assoc, dropWhile_append_of_all ha]
  by_cases hne : s = []
  · subst hne
    rw [List.nil_append, dropWhile_all hb]
    rfl
  have : (s ++ b).dropWhile isSpace = s ++ b := by
    apply dropWhile_eq_self
    intro c hc
    apply h.1
    cases s with
    | nil => exact absurd rfl hne
    | cons x xs => simpa using hc
  rw [this, List.reverse_append, dropWhile_append_of_all (by simpa using hb),
    dropWhile_eq_self (by simpa using h.2), List.reverse_reverse]

theorem dropWhile_head {p : Char → Bool} {s : Str} {c : Char}
    (h : (s.dropWhile p).head? = some c) : p c = false := by
  induction s with
  | nil => simp at h
  | cons x xs ih =>
    simp only [List.dropWhile] at h
    split at h
    · exact ih h
    · rename_i hx
      simp at h; subst h; exact hx

theorem dropWhile_suffix_split (p : Char → Bool) (s : Str) :
    ∃ w, s = w ++ s.dropWhile p :=
  ⟨s.takeWhile p, by simp⟩

theorem strip_isTrim (s : Str) : Trim (strip s) := by
  unfold strip
  constructor
  · intro c hc
    -- the head of the result is the head of the left-stripped text
    generalize hl : s.dropWhile isSpace = l at hc
    have hl' : ∀ c, l.head? = some c → isSpace c = false := by
      subst hl; exact fun c => dropWhile_head
    obtain ⟨w, hw⟩ := dropWhile_suffix_split isSpace l.reverse
    have hl2 : l = (l.reverse.dropWhile isSpace).reverse ++ w.reverse := by
      have := congrArg List.reverse hw
      simpa using this
    apply hl'
    rw [hl2, List.head?_append, hc]
    rfl
  · intro c hc
    rw [List.getLast?_reverse] at hc
    exact dropWhile_head hc

theorem mem_strip {s : Str} {c : Char} (h : c ∈ strip s) : c ∈ s := by
  unfold strip at h
  rw [List.mem_reverse] at h
  have h1 := (List.dropWhile_sublist isSpace (l := (s.dropWhile isSpace).reverse)).subset h
  rw [List.mem_reverse] at h1
  exact (List.dropWhile_sublist isSpace (l := s)).subset h1

theorem splitOn_no {c : Char} {s : Str} (h : c ∉ s) : splitOn c s = [s] := by
  induction s with
  | nil => rfl
  | cons x xs ih =>
    simp only [List.mem_cons, not_or] at h
    simp [splitOn, ih h.2, Ne.symm h.1]

theorem splitOn_append {c : Char} {a b : Str} (h : c ∉ a) :
    splitOn c (a ++ c :: b) = a :: splitOn c b := by
  induction a with
  | nil => simp [splitOn]
  | cons x xs ih =>
    simp only [List.mem_cons, not_or] at h
    simp [splitOn, ih h.2, Ne.symm h.1]

end Verif
