import Verif.Model.Symbols
import Verif.Spec.Chem
import Verif.Lemmas.Rxn
namespace Verif
open Spec

theorem length_dropWhile_le (p : Char → Bool) (s : Str) : (s.dropWhile p).length ≤ s.length :=
  (List.dropWhile_sublist p).length_le

theorem splitParen_length {d : Nat} {s a b : Str} (h : splitParen d s = some (a, b)) :
    a.length + b.length < s.length := by
  induction s generalizing d a with
  | nil => simp [splitParen] at h
  | cons c cs ih =>
    simp only [splitParen] at h
    split at h
    · simp only [Option.map_eq_some_iff] at h
      obtain ⟨⟨a', b'⟩, h1, h2⟩ := h
      cases h2
      have h3 := ih h1
      dsimp only [List.length_cons] at h3 ⊢; omega
    · split at h
      · split at h
        · cases h; simp
        · simp only [Option.map_eq_some_iff] at h
          obtain ⟨⟨a', b'⟩, h1, h2⟩ := h
          cases h2
          have h3 := ih h1
          dsimp only [List.length_cons] at h3 ⊢; omega
      · simp only [Option.map_eq_some_iff] at h
        obtain ⟨⟨a', b'⟩, h1, h2⟩ := h
        cases h2
        have h3 := ih h1
        dsimp only [List.length_cons] at h3 ⊢; omega

theorem parts_length (cs : Str) :
    ((splitParen 0 cs).getD (cs.dropLast, [])).1.length ≤ cs.length ∧
    ((splitParen 0 cs).getD (cs.dropLast, [])).2.length ≤ cs.length := by
  cases h : splitParen 0 cs with
  | none => simp
  | some r =>
    obtain ⟨a, b⟩ := r
    have := splitParen_length h
    simp; omega

/-- The depth bound is never reached. -/
theorem symbolsFuel_eq {n m : Nat} {s : Str} (hn : s.length < n) (hm : s.length < m) :
    symbolsFuel n s = symbolsFuel m s := by
  induction n generalizing m s with
  | zero => omega
  | succ n ih =>
    cases m with
    | zero => omega
    | succ m =>
      cases s with
      | nil => rfl
      | cons c cs =>
        simp only [List.length_cons] at hn hm
        simp only [symbolsFuel]
        have hp := parts_length cs
        split
        · have := length_dropWhile_le isDigit cs
          rw [ih (m := m) (by omega) (by omega)]
        · split
          · have h2 := length_dropWhile_le isDigit ((splitParen 0 cs).getD (cs.dropLast, [])).2
            rw [ih (m := m) (s := ((splitParen 0 cs).getD (cs.dropLast, [])).1) (by omega) (by omega),
              ih (m := m) (s := List.dropWhile isDigit ((splitParen 0 cs).getD (cs.dropLast, [])).2)
                (by omega) (by omega)]
          · split
            · cases cs with
              | nil =>
                show (match symbolsFuel n [] with | .ok b => _ | .error e => _) = _
                rw [ih (m := m) (by simpa using hn) (by simpa using hm)]
                rfl
              | cons d ds =>
                simp only [List.length_cons] at hn hm
                have h1 := length_dropWhile_le isDigit ds
                have h2 := length_dropWhile_le isDigit (d :: ds)
                simp only [List.length_cons] at h2
                cases hd : isLower d
                · simp only [hd, Bool.false_eq_true, if_false]
                  rw [ih (m := m) (s := List.dropWhile isDigit (d :: ds)) (by omega) (by omega)]
                · simp only [hd, if_true]
                  rw [ih (m := m) (s := List.dropWhile isDigit ds) (by omega) (by omega)]
            · rfl

theorem symbolsFuel_string2symbols {n : Nat} {s : Str} (hn : s.length < n) :
    symbolsFuel n s = string2symbols s :=
  symbolsFuel_eq hn (Nat.lt_succ_self _)

/-! ### unfolding equations without the bound -/

theorem s2s_nil : string2symbols [] = .ok [] := rfl

theorem s2s_digit {c : Char} {cs : Str} (h : isDigit c = true) :
    string2symbols (c :: cs) = (string2symbols (cs.dropWhile isDigit)).map
      (rep (intOf (c :: cs.takeWhile isDigit))) := by
  have := length_dropWhile_le isDigit cs
  conv => lhs; unfold string2symbols symbolsFuel
  simp only [h, if_true]
  rw [symbolsFuel_string2symbols (by simp; omega)]
  cases string2symbols (cs.dropWhile isDigit) <;> rfl

theorem s2s_paren {cs : Str} :
    string2symbols ('(' :: cs) =
      (match string2symbols ((splitParen 0 cs).getD (cs.dropLast, [])).1 with
      | .ok a => (string2symbols (((splitParen 0 cs).getD (cs.dropLast, [])).2.dropWhile isDigit)).map
          (rep (intOr1 (((splitParen 0 cs).getD (cs.dropLast, [])).2.takeWhile isDigit)) a ++ ·)
      | .error e => .error e) := by
  have hp := parts_length cs
  have h2 := length_dropWhile_le isDigit ((splitParen 0 cs).getD (cs.dropLast, [])).2
  conv => lhs; unfold string2symbols symbolsFuel
  simp only [show isDigit '(' = false by decide, if_true]
  simp only [Bool.false_eq_true, if_false]
  rw [symbolsFuel_string2symbols (s := ((splitParen 0 cs).getD (cs.dropLast, [])).1) (by simp; omega),
    symbolsFuel_string2symbols (s := ((splitParen 0 cs).getD (cs.dropLast, [])).2.dropWhile isDigit)
      (by simp only [List.length_cons]; omega)]
  cases string2symbols ((splitParen 0 cs).getD (cs.dropLast, [])).1 with
  | error e => rfl
  | ok a =>
    simp only
    cases string2symbols (((splitParen 0 cs).getD (cs.dropLast, [])).2.dropWhile isDigit) <;> rfl

theorem upper_not {c : Char} (h : isUpper c = true) : isDigit c = false ∧ c ≠ '(' ∧ c ≠ ')' ∧ isLower c = false := by
  rw [isUpper_iff] at h
  refine ⟨?_, ?_, ?_, ?_⟩
  · rw [Bool.eq_false_iff, Ne, isDigit_iff]; omega
  · rw [Ne, char_eq_iff]; simp; omega
  · rw [Ne, char_eq_iff]; simp; omega
  · rw [Bool.eq_false_iff, Ne, isLower_iff]; omega

theorem s2s_upper_lower {c d : Char} {ds : Str} (hc : isUpper c = true) (hd : isLower d = true) :
    string2symbols (c :: d :: ds) = (string2symbols (ds.dropWhile isDigit)).map
      (rep (intOr1 (ds.takeWhile isDigit)) [[c, d]] ++ ·) := by
  obtain ⟨h1, h2, -, -⟩ := upper_not hc
  have h3 := length_dropWhile_le isDigit ds
  conv => lhs; unfold string2symbols symbolsFuel
  simp only [h1, h2, hc, hd, if_true, if_false, Bool.false_eq_true]
  rw [symbolsFuel_string2symbols (by simp; omega)]
  cases string2symbols (ds.dropWhile isDigit) <;> rfl

theorem s2s_upper {c : Char} {ds : Str} (hc : isUpper c = true)
    (hd : ∀ d, ds.head? = some d → isLower d = false) :
    string2symbols (c :: ds) = (string2symbols (ds.dropWhile isDigit)).map
      (rep (intOr1 (ds.takeWhile isDigit)) [[c]] ++ ·) := by
  obtain ⟨h1, h2, -, -⟩ := upper_not hc
  have h3 := length_dropWhile_le isDigit ds
  conv => lhs; unfold string2symbols symbolsFuel
  simp only [h1, h2, hc, if_true, if_false, Bool.false_eq_true]
  cases ds with
  | nil => rfl
  | cons d ds =>
    simp only [hd d rfl, Bool.false_eq_true, if_false]
    rw [symbolsFuel_string2symbols (by simp at h3 ⊢; omega)]
    cases string2symbols ((d :: ds).dropWhile isDigit) <;> rfl

theorem s2s_bad {c : Char} {cs : Str} (h1 : isDigit c = false) (h2 : c ≠ '(') (h3 : isUpper c = false) :
    string2symbols (c :: cs) = .error .ValueError := by
  unfold string2symbols symbolsFuel
  simp [h1, h2, h3]

/-! ### rendered formulas -/

theorem splitParen_append {w : Str} (hw : '(' ∉ w ∧ ')' ∉ w) (d : Nat) (s : Str) :
    splitParen d (w ++ s) = (splitParen d s).map fun r => (w ++ r.1, r.2) := by
  induction w with
  | nil => simp
  | cons c w ih =>
    simp only [List.mem_cons, not_or] at hw
    have := ih ⟨hw.1.2, hw.2.2⟩
    simp only [List.cons_append, splitParen, Ne.symm hw.1.1, Ne.symm hw.2.1, if_false, this]
    cases splitParen d s <;> rfl

theorem numText_no_paren (n : Option Nat) : '(' ∉ numText n ∧ ')' ∉ numText n := by
  constructor <;> intro h <;> exact absurd (numText_digits n _ h) (by decide)

theorem splitParen_text {c : Chem} (hc : c.ok = true) (d : Nat) (s : Str) :
    splitParen d (c.text ++ s) = (splitParen d s).map fun r => (c.text ++ r.1, r.2) := by
  induction c generalizing d s with
  | nil => simp [Chem.text]
  | sym u l n rest ih =>
    simp only [Chem.ok, Bool.and_eq_true] at hc
    have hw : '(' ∉ u :: (l.toList ++ numText n) ∧ ')' ∉ u :: (l.toList ++ numText n) := by
      obtain ⟨-, h2, h3, -⟩ := upper_not hc.1.1
      have hl : ∀ x ∈ l, isLower x = true := by
        intro x hx; rw [Option.mem_def] at hx; subst hx; simpa using hc.1.2
      obtain ⟨n1, n2⟩ := numText_no_paren n
      constructor <;> simp only [List.mem_cons, List.mem_append, Option.mem_toList, not_or]
      · exact ⟨Ne.symm h2, fun hx => absurd (hl _ hx) (by decide), n1⟩
      · exact ⟨Ne.symm h3, fun hx => absurd (hl _ hx) (by decide), n2⟩
    have := splitParen_append hw d (rest.text ++ s)
    simp only [Chem.text, List.cons_append, List.append_assoc] at this ⊢
    rw [this, ih hc.2]
    cases splitParen d s <;> simp
  | group k inner n rest ih1 ih2 =>
    simp only [Chem.ok, Bool.and_eq_true] at hc
    simp only [Chem.text, List.cons_append, List.append_assoc]
    simp only [splitParen, if_true]
    rw [splitParen_append (numText_no_paren k), ih1 hc.1]
    simp only [splitParen, show ¬ (')' = '(') by decide, if_false, if_true]
    rw [splitParen_append (numText_no_paren n), ih2 hc.2]
    cases splitParen d s <;> simp

/-- The next character of a formula is no digit and no lower case letter. -/
theorem chem_head {c : Chem} (hc : c.ok = true) :
    ∀ x, c.text.head? = some x → isDigit x = false ∧ isLower x = false := by
  intro x hx
  cases c with
  | nil => simp [Chem.text] at hx
  | sym u l n rest =>
    simp only [Chem.ok, Bool.and_eq_true] at hc
    simp [Chem.text] at hx
    subst hx
    obtain ⟨h1, -, -, h4⟩ := upper_not hc.1.1
    exact ⟨h1, h4⟩
  | group k inner n rest =>
    simp [Chem.text] at hx
    subst hx; decide

theorem dropWhile_digits {ds s : Str} (h : ∀ c ∈ ds, isDigit c = true)
    (hs : ∀ c, s.head? = some c → isDigit c = false) : (ds ++ s).dropWhile isDigit = s := by
  rw [dropWhile_append_of_all h, dropWhile_eq_self hs]

/-- The symbol list of a specified formula (used in proofs; the property is about counts). -/
def chemSymbols : Chem → List Str
  | .nil => []
  | .sym u l n rest => rep (n.getD 1) [u :: l.toList] ++ chemSymbols rest
  | .group k inner n rest => rep (n.getD 1) (rep (k.getD 1) (chemSymbols inner)) ++ chemSymbols rest

theorem rep_one {α : Type} (l : List α) : rep 1 l = l := by simp [rep]

theorem s2s_mult (k : Option Nat) {s : Str} (hs : ∀ c, s.head? = some c → isDigit c = false) :
    string2symbols (numText k ++ s) = (string2symbols s).map (rep (k.getD 1)) := by
  cases k with
  | none =>
    simp only [numText, List.nil_append, Option.getD_none]
    cases string2symbols s with
    | error e => rfl
    | ok l => simp [Except.map, rep_one]
  | some n =>
    have hd := digits_toDigits n
    have hv := intOf_toDigits n
    simp only [numText, Option.getD_some]
    cases ht : Nat.toDigits 10 n with
    | nil => exact absurd ht Nat.toDigits_ne_nil
    | cons c ds =>
      rw [ht] at hd hv
      have hds : ∀ x ∈ ds, isDigit x = true := fun x hx => hd x (by simp [hx])
      rw [List.cons_append, s2s_digit (hd c (by simp)), takeWhile_digits hds hs,
        dropWhile_digits hds hs, hv]

theorem s2s_chem {c : Chem} (hc : c.ok = true) : string2symbols c.text = .ok (chemSymbols c) := by
  induction c with
  | nil => rfl
  | sym u l n rest ih =>
    simp only [Chem.ok, Bool.and_eq_true] at hc
    have ih := ih hc.2
    have hd : ∀ x, rest.text.head? = some x → isDigit x = false := fun x hx => (chem_head hc.2 x hx).1
    have t1 := takeWhile_digits (numText_digits n) hd
    have t2 := dropWhile_digits (numText_digits n) hd
    cases l with
    | none =>
      simp only [Chem.text, Option.toList_none, List.nil_append]
      rw [s2s_upper hc.1.1, t1, t2, ih, intOr1_numText]
      · rfl
      · intro x hx
        cases hn : numText n with
        | nil => rw [hn] at hx; exact (chem_head hc.2 x (by simpa using hx)).2
        | cons y ys =>
          rw [hn] at hx; simp at hx; subst hx
          have := numText_digits n y (by simp [hn])
          rw [isDigit_iff] at this
          rw [Bool.eq_false_iff, Ne, isLower_iff]; omega
    | some l =>
      simp only [Chem.text, Option.toList_some, List.cons_append, List.nil_append]
      rw [s2s_upper_lower hc.1.1 (by simpa using hc.1.2), t1, t2, ih, intOr1_numText]
      rfl
  | group k inner n rest ih1 ih2 =>
    simp only [Chem.ok, Bool.and_eq_true] at hc
    have ih1 := ih1 hc.1
    have ih2 := ih2 hc.2
    have hd1 : ∀ x, inner.text.head? = some x → isDigit x = false := fun x hx => (chem_head hc.1 x hx).1
    have hd2 : ∀ x, rest.text.head? = some x → isDigit x = false := fun x hx => (chem_head hc.2 x hx).1
    simp only [Chem.text]
    have hsplit : splitParen 0 (numText k ++ (inner.text ++ ')' :: (numText n ++ rest.text)))
        = some (numText k ++ inner.text, numText n ++ rest.text) := by
      rw [splitParen_append (numText_no_paren k), splitParen_text hc.1]
      simp [splitParen]
    rw [s2s_paren, hsplit]
    simp only [Option.getD_some]
    rw [s2s_mult k hd1, ih1, takeWhile_digits (numText_digits n) hd2,
      dropWhile_digits (numText_digits n) hd2, ih2, intOr1_numText]
    rfl

theorem count_rep {x : Str} (m : Nat) (l : List Str) : (rep m l).count x = m * l.count x := by
  induction m with
  | zero => simp [rep]
  | succ m ih =>
    have : rep (m + 1) l = l ++ rep m l := by simp [rep, List.replicate_succ]
    rw [this, List.count_append, ih, Nat.succ_mul, Nat.add_comm]

theorem count_chemSymbols (x : Str) (c : Chem) : (chemSymbols c).count x = c.count x := by
  induction c with
  | nil => rfl
  | sym u l n rest ih =>
    simp only [chemSymbols, Chem.count, List.count_append, count_rep, ih, List.count_singleton]
    by_cases h : u :: l.toList = x <;> simp [h]
  | group k inner n rest ih1 ih2 =>
    simp only [chemSymbols, Chem.count, List.count_append, count_rep, ih1, ih2]

end Verif
