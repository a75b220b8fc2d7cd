import Verif.Props.Symbols
import Mathlib.Tactic.Linarith
/-
C05 for all symbols of the element table, also those of two letters: what an accepted reaction keeps.
-/
namespace Verif
open Spec (Chem)

/-- A symbol of the element table as it is written: one letter or two, with an optional number. -/
inductive TableSym
  | one (c : Char) (n : Option Nat)
  | chlorine (n : Option Nat)
  | neon (n : Option Nat)

/-- The letters of a symbol; the number stands after the last one. -/
def TableSym.toks : TableSym → List Spec.Tok
  | .one c n => [.elem c n]
  | .chlorine n => [.elem 'C' none, .elem 'l' n]
  | .neon n => [.elem 'N' none, .elem 'e' n]

/-- One letter symbols are those of the table. -/
def TableSym.ok : TableSym → Prop
  | .one c _ => c ∈ ['H', 'C', 'N', 'O', 'F', 'S']
  | _ => True

/-- The mass of a symbol with its number, by the table. -/
def TableSym.mass : TableSym → ℚ
  | .one c n => (n.getD 1 : ℚ) * letterMass c
  | .chlorine n => (n.getD 1 : ℚ) * (35453 / 1000)
  | .neon n => (n.getD 1 : ℚ) * (201797 / 10000)

/-- Species written with symbols of the element table. -/
def TableSpecies : Spec.Species → Prop
  | .emptySite => True
  | .mol ts => ∃ l : List TableSym, (∀ x ∈ l, x.ok) ∧ ts = l.flatMap TableSym.toks

/-- What the counting of letters misses of a piece: for a number after the second letter of a symbol the first letter
is counted once only. -/
def tokExcess : Spec.Tok → ℚ
  | .elem c n => if c = 'l' then ((n.getD 1 : ℚ) - 1) * letterMass 'C' else if c = 'e' then ((n.getD 1 : ℚ) - 1) * letterMass 'N' else 0
  | .dash => 0

/-- The same for a species. -/
def speciesExcess : Spec.Species → ℚ
  | .emptySite => 0
  | .mol ts => (ts.map tokExcess).sum

/-- The same for a state. -/
def stateExcess : Spec.State → ℚ
  | [] => 0
  | f :: fs => (f.coefficient : ℚ) * speciesExcess f.sp + stateExcess fs

/-- The weight a letter has when letters are counted. -/
def letterWeight (c : Char) : ℚ :=
  if c = 'l' then 35453 / 1000 - letterMass 'C' else if c = 'e' then 201797 / 10000 - letterMass 'N' else letterMass c

/-- The letters of the symbols of the table. -/
def tableLetters : List Char := ['H', 'C', 'N', 'O', 'F', 'S', 'l', 'e']

def chemOfTable : List TableSym → Chem
  | [] => .nil
  | .one c n :: l => .sym c none n (chemOfTable l)
  | .chlorine n :: l => .sym 'C' (some 'l') n (chemOfTable l)
  | .neon n :: l => .sym 'N' (some 'e') n (chemOfTable l)

theorem rep_mass (x : Str) (m : Nat) : ((rep m [x]).map fun x => (elementMass x).getD 0).sum = m * (elementMass x).getD 0 := by
  induction m with
  | zero => simp [rep]
  | succ m ihm =>
    have : rep (m + 1) [x] = x :: rep m [x] := by simp [rep, List.replicate_succ]
    rw [this, List.map_cons, List.sum_cons, ihm]
    push_cast
    ring

theorem mem_rep {x y : Str} {m : Nat} (h : y ∈ rep m [x]) : y = x := by
  simp only [rep, List.mem_flatten, List.mem_replicate] at h
  obtain ⟨z, ⟨-, rfl⟩, h⟩ := h
  simpa using h

theorem chemOfTable_spec {l : List TableSym} (h : ∀ x ∈ l, x.ok) :
    (chemOfTable l).ok = true ∧ (chemOfTable l).text = (l.flatMap TableSym.toks).flatMap Spec.Tok.text ∧
    (∀ x ∈ chemSymbols (chemOfTable l), elementMass x = some ((elementMass x).getD 0)) ∧
    ((chemSymbols (chemOfTable l)).map fun x => (elementMass x).getD 0).sum = (l.map TableSym.mass).sum := by
  induction l with
  | nil => simp [chemOfTable, chemSymbols, Chem.ok, Chem.text]
  | cons t l ih =>
    obtain ⟨i1, i2, i3, i4⟩ := ih (fun u hu => h u (by simp [hu]))
    have ht := h t (by simp)
    cases t with
    | one c n =>
      simp only [TableSym.ok, List.mem_cons, List.not_mem_nil, or_false] at ht
      refine ⟨?_, ?_, ?_, ?_⟩
      · simp only [chemOfTable, Chem.ok, i1, Option.all_none, Bool.and_true]
        rcases ht with rfl | rfl | rfl | rfl | rfl | rfl <;> decide
      · simp [chemOfTable, Chem.text, i2, Spec.Tok.text, TableSym.toks]
      · intro x hx
        simp only [chemOfTable, chemSymbols, List.mem_append] at hx
        rcases hx with hx | hx
        · rw [mem_rep hx]
          rcases ht with rfl | rfl | rfl | rfl | rfl | rfl <;> rfl
        · exact i3 x hx
      · simp only [chemOfTable, chemSymbols, List.map_append, List.sum_append, i4, List.map_cons, List.sum_cons]
        rw [rep_mass]
        rfl
    | chlorine n =>
      refine ⟨?_, ?_, ?_, ?_⟩
      · simp only [chemOfTable, Chem.ok, i1, Bool.and_true]; decide
      · simp [chemOfTable, Chem.text, i2, Spec.Tok.text, TableSym.toks, Spec.numText]
      · intro x hx
        simp only [chemOfTable, chemSymbols, List.mem_append] at hx
        rcases hx with hx | hx
        · rw [mem_rep hx]; rfl
        · exact i3 x hx
      · simp only [chemOfTable, chemSymbols, List.map_append, List.sum_append, i4, List.map_cons, List.sum_cons]
        rw [rep_mass]
        rfl
    | neon n =>
      refine ⟨?_, ?_, ?_, ?_⟩
      · simp only [chemOfTable, Chem.ok, i1, Bool.and_true]; decide
      · simp [chemOfTable, Chem.text, i2, Spec.Tok.text, TableSym.toks, Spec.numText]
      · intro x hx
        simp only [chemOfTable, chemSymbols, List.mem_append] at hx
        rcases hx with hx | hx
        · rw [mem_rep hx]; rfl
        · exact i3 x hx
      · simp only [chemOfTable, chemSymbols, List.map_append, List.sum_append, i4, List.map_cons, List.sum_cons]
        rw [rep_mass]
        rfl

theorem table_counts {l : List TableSym} (h : ∀ x ∈ l, x.ok) :
    (l.map TableSym.mass).sum = (tableLetters.map fun c => ((((l.flatMap TableSym.toks).map (Spec.Tok.count c)).sum : Nat) : ℚ) * letterWeight c).sum +
      ((l.flatMap TableSym.toks).map tokExcess).sum := by
  induction l with
  | nil => simp [tableLetters]
  | cons t l ih =>
    rw [List.map_cons, List.sum_cons, ih fun u hu => h u (by simp [hu])]
    have ht := h t (by simp)
    simp only [List.flatMap_cons, List.map_append, List.sum_append, tableLetters, List.map_cons, List.map_nil, List.sum_cons, List.sum_nil]
    cases t with
    | one c n =>
      simp only [TableSym.ok, List.mem_cons, List.not_mem_nil, or_false] at ht
      rcases ht with rfl | rfl | rfl | rfl | rfl | rfl <;>
      · simp [TableSym.toks, TableSym.mass, Spec.Tok.count, tokExcess, letterWeight]
        ring
    | chlorine n =>
      simp [TableSym.toks, TableSym.mass, Spec.Tok.count, tokExcess, letterWeight]
      ring
    | neon n =>
      simp [TableSym.toks, TableSym.mass, Spec.Tok.count, tokExcess, letterWeight]
      ring

theorem stateMass_table {s : Spec.State} (h : ∀ f ∈ s, TableSpecies f.sp) :
    stateMass s = .ok ((tableLetters.map fun c => (s.count c : ℚ) * letterWeight c).sum + stateExcess s) := by
  induction s with
  | nil => simp [stateMass, Spec.State.count, stateExcess, tableLetters]
  | cons f s ih =>
    have hf := h f (by simp)
    have hm : speciesMass f.sp = .ok ((tableLetters.map fun c => (f.sp.count c : ℚ) * letterWeight c).sum + speciesExcess f.sp) := by
      cases hsp : f.sp with
      | emptySite => simp [Spec.Species.count, speciesMass, speciesExcess, tableLetters]
      | mol ts =>
        rw [hsp] at hf
        obtain ⟨l, hl, rfl⟩ := hf
        obtain ⟨h1, h2, h3, h4⟩ := chemOfTable_spec hl
        show molecularMass ((l.flatMap TableSym.toks).flatMap Spec.Tok.text) = _
        rw [← h2]
        simp only [molecularMass, s2s_chem h1]
        rw [sumMasses_ok (g := fun x => (elementMass x).getD 0) h3, h4, table_counts hl]
        rfl
    simp only [stateMass, hm, ih (fun g hg => h g (by simp [hg]))]
    simp only [bind, Except.bind, pure, Except.pure, Spec.State.count, List.map_cons, List.sum_cons,
      List.map_nil, List.sum_nil, Spec.Formula.count, stateExcess, tableLetters]
    congr 1
    push_cast
    ring

/-- **C05** What an accepted reaction keeps, for all symbols of the element table: the mass without what the counting of
letters misses. A number after a symbol of two letters counts for the second letter only, so for `Cl3` two carbons are
missing. -/
theorem C05_kept (r : Spec.Rxn) (r1 r2 : Bool) (h : r.ok = true) (hs : ∀ s ∈ r.states, ∀ f ∈ s, TableSpecies f.sp)
    (hc : checkConservation (r.text r1 r2) = .ok true) :
    ∃ M, ∀ s ∈ r.states, ∃ m, stateMass s = .ok m ∧ m - stateExcess s = M := by
  have hb := accepted_balanced h hc
  obtain ⟨s0, hs0⟩ : ∃ s0, s0 ∈ r.states := by
    cases r <;> exact ⟨_, List.mem_cons_self⟩
  refine ⟨(tableLetters.map fun c => (s0.count c : ℚ) * letterWeight c).sum, fun s hss => ⟨_, stateMass_table (hs s hss), ?_⟩⟩
  have : ∀ c, s.count c = s0.count c := fun c => (hb s hss s0 hs0).1 c
  simp only [this]
  ring

/-- **C05** So an accepted reaction conserves mass exactly if that is the same for all states. -/
theorem C05_mass_iff (r : Spec.Rxn) (r1 r2 : Bool) (h : r.ok = true) (hs : ∀ s ∈ r.states, ∀ f ∈ s, TableSpecies f.sp)
    (hc : checkConservation (r.text r1 r2) = .ok true) :
    (∃ m, ∀ s ∈ r.states, stateMass s = .ok m) ↔ ∃ e, ∀ s ∈ r.states, stateExcess s = e := by
  obtain ⟨M, hM⟩ := C05_kept r r1 r2 h hs hc
  constructor
  · rintro ⟨m, hm⟩
    refine ⟨m - M, fun s hs => ?_⟩
    obtain ⟨m', h1, h2⟩ := hM s hs
    rw [hm s hs] at h1
    rw [← Except.ok.inj h1] at h2
    linarith
  · rintro ⟨e, he⟩
    refine ⟨M + e, fun s hs => ?_⟩
    obtain ⟨m', h1, h2⟩ := hM s hs
    rw [h1]
    congr 1
    rw [he s hs] at h2
    linarith

/-- **C05** In particular an accepted reaction whose symbols of two letters carry no number (or the number one) conserves
mass. Missing for the full statement: numbers after symbols of two letters (`C05_two_letter_elements_refuted`). -/
theorem C05_two_letters_partial (r : Spec.Rxn) (r1 r2 : Bool) (h : r.ok = true) (hs : ∀ s ∈ r.states, ∀ f ∈ s, TableSpecies f.sp)
    (hn : ∀ s ∈ r.states, ∀ f ∈ s, ∀ ts, f.sp = .mol ts → ∀ n, (.elem 'l' n ∈ ts ∨ .elem 'e' n ∈ ts) → n.getD 1 = 1)
    (hc : checkConservation (r.text r1 r2) = .ok true) : ∃ m, ∀ s ∈ r.states, stateMass s = .ok m := by
  rw [C05_mass_iff r r1 r2 h hs hc]
  refine ⟨0, fun s hss => ?_⟩
  have hn' := hn s hss
  clear hs hn hss hc
  induction s with
  | nil => rfl
  | cons f s ih =>
    have hz : speciesExcess f.sp = 0 := by
      cases hsp : f.sp with
      | emptySite => rfl
      | mol ts =>
        have := hn' f (by simp) ts hsp
        show (ts.map tokExcess).sum = 0
        apply List.sum_eq_zero
        intro x hx
        obtain ⟨t, ht, rfl⟩ := List.mem_map.mp hx
        cases t with
        | dash => rfl
        | elem c n =>
          unfold tokExcess
          dsimp only
          by_cases h1 : c = 'l'
          · subst h1
            rw [if_pos rfl, this n (Or.inl ht)]
            norm_num
          · rw [if_neg h1]
            by_cases h2 : c = 'e'
            · subst h2
              rw [if_pos rfl, this n (Or.inr ht)]
              norm_num
            · rw [if_neg h2]
    show (f.coefficient : ℚ) * speciesExcess f.sp + stateExcess s = 0
    rw [hz, ih fun g hg => hn' g (by simp [hg])]
    ring

/-- `CCl_s + *_s -> C_s + Cl_s`. -/
def exChlorine : Spec.Rxn :=
  .two [⟨none, .mol [.elem 'C' none, .elem 'C' none, .elem 'l' none], none, str! "s"⟩, ⟨none, .emptySite, none, str! "s"⟩]
    [⟨none, .mol [.elem 'C' none], none, str! "s"⟩, ⟨none, .mol [.elem 'C' none, .elem 'l' none], none, str! "s"⟩]
example : exChlorine.ok = true ∧ exChlorine.text false false = str! "CCl_s + *_s -> C_s + Cl_s" ∧
    checkConservation (exChlorine.text false false) = .ok true := by decide
example : (∀ s ∈ exChlorine.states, ∀ f ∈ s, TableSpecies f.sp) := by
  intro s hs f hf
  simp [exChlorine, Spec.Rxn.states] at hs
  rcases hs with rfl | rfl <;> simp at hf <;> rcases hf with rfl | rfl
  · exact ⟨[.one 'C' none, .chlorine none], by simp [TableSym.ok], rfl⟩
  · trivial
  · exact ⟨[.one 'C' none], by simp [TableSym.ok], rfl⟩
  · exact ⟨[.chlorine none], by simp [TableSym.ok], rfl⟩

/-- `Cl2_g + C_s + *_s -> 2Cl_s`, which is accepted: what is missed is the mass of one carbon on the left and nothing on
the right. -/
example : stateExcess [⟨none, .mol [.elem 'C' none, .elem 'l' (some 2)], none, str! "g"⟩, ⟨none, .mol [.elem 'C' none], none, str! "s"⟩,
      ⟨none, .emptySite, none, str! "s"⟩] = 120107 / 10000 ∧
    stateExcess [⟨some 2, .mol [.elem 'C' none, .elem 'l' none], none, str! "s"⟩] = 0 := by decide +kernel

/-! ### The theorems at these cases -/

example : ∃ M, ∀ s ∈ exChlorine.states, ∃ m, stateMass s = .ok m ∧ m - stateExcess s = M := by
  refine C05_kept exChlorine false false (by decide) ?_ (by decide)
  intro s hs f hf
  simp [exChlorine, Spec.Rxn.states] at hs
  rcases hs with rfl | rfl <;> simp at hf <;> rcases hf with rfl | rfl
  · exact ⟨[.one 'C' none, .chlorine none], by simp [TableSym.ok], rfl⟩
  · trivial
  · exact ⟨[.one 'C' none], by simp [TableSym.ok], rfl⟩
  · exact ⟨[.chlorine none], by simp [TableSym.ok], rfl⟩

end Verif
