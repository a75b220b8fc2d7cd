import Verif.Lemmas.Mass
import Verif.Props.Rxn
/-
Properties C05 and C58: chemical symbols and molecular mass.
-/
namespace Verif
open Spec

/-! ## C58 symbol expansion is compositional -/

/-- Expanding a formula built from symbols, counts and (nested) groups succeeds and gives every
symbol exactly as often as the formula says. -/
theorem C58_symbols_multiplicity (c : Chem) (h : c.ok = true) :
    ∃ l, string2symbols c.text = .ok l ∧ ∀ x, l.count x = c.count x :=
  ⟨_, s2s_chem h, fun x => count_chemSymbols x c⟩

/-- The order of the symbols is the written order, so concatenating formulas concatenates the
results. -/
theorem C58_symbols_append (a b : Chem) (ha : a.ok = true) (hb : b.ok = true) :
    ∃ la lb, string2symbols a.text = .ok la ∧ string2symbols b.text = .ok lb ∧
      string2symbols (a.text ++ b.text) = .ok (la ++ lb) := by
  refine ⟨_, _, s2s_chem ha, s2s_chem hb, ?_⟩
  have ht : a.text ++ b.text = (a.append b).text := by
    clear ha
    induction a with
    | nil => rfl
    | sym u l n rest ih => simp [Chem.text, Chem.append, ← ih]
    | group k i n rest _ ih => simp [Chem.text, Chem.append, ← ih]
  have ho : (a.append b).ok = true := by
    clear ht
    induction a with
    | nil => exact hb
    | sym u l n rest ih =>
      simp only [Chem.ok, Chem.append, Bool.and_eq_true] at ha ⊢
      exact ⟨ha.1, ih ha.2⟩
    | group k i n rest _ ih =>
      simp only [Chem.ok, Chem.append, Bool.and_eq_true] at ha ⊢
      exact ⟨ha.1, ih ha.2⟩
  have hs : chemSymbols (a.append b) = chemSymbols a ++ chemSymbols b := by
    clear ha ht ho
    induction a with
    | nil => rfl
    | sym u l n rest ih => simp [chemSymbols, Chem.append, ih]
    | group k i n rest _ ih => simp [chemSymbols, Chem.append, ih]
  rw [ht, s2s_chem ho, hs]

/-- A leading number multiplies everything that follows. -/
theorem C58_leading_multiplier (k : Nat) (c : Chem) (h : c.ok = true) (x : Str) :
    ∃ l, string2symbols (numText (some k) ++ c.text) = .ok l ∧ l.count x = k * c.count x := by
  refine ⟨rep k (chemSymbols c), ?_, ?_⟩
  · rw [s2s_mult (some k) (fun y hy => (chem_head h y hy).1), s2s_chem h]; rfl
  · rw [count_rep, count_chemSymbols]

/-- Whatever text is accepted, every reported symbol is an upper case letter with at most one
lower case letter, and only letters of the text are reported. -/
theorem C58_symbols_wellformed (s : Str) (l : List Str) (h : string2symbols s = .ok l) :
    ∀ x ∈ l, ∃ u, isUpper u = true ∧ u ∈ s ∧ (x = [u] ∨ ∃ d, isLower d = true ∧ d ∈ s ∧ x = [u, d]) := by
  have hrep : ∀ {m : Nat} {l : List Str} {x : Str}, x ∈ rep m l → x ∈ l := by
    intro m l x hx
    simp only [rep, List.mem_flatten, List.mem_replicate] at hx
    obtain ⟨y, ⟨-, rfl⟩, hx⟩ := hx
    exact hx
  have hsp : ∀ {d : Nat} {cs a b : Str}, splitParen d cs = some (a, b) →
      (∀ y ∈ a, y ∈ cs) ∧ (∀ y ∈ b, y ∈ cs) := by
    intro d cs
    induction cs generalizing d with
    | nil => intro a b h; simp [splitParen] at h
    | cons c cs ih =>
      intro a b h
      have hmap : ∀ {d' : Nat}, (splitParen d' cs).map (fun r => (c :: r.1, r.2)) = some (a, b) →
          (∀ y ∈ a, y ∈ c :: cs) ∧ (∀ y ∈ b, y ∈ c :: cs) := by
        intro d' h
        simp only [Option.map_eq_some_iff] at h
        obtain ⟨⟨a', b'⟩, h1, h2⟩ := h
        cases h2
        obtain ⟨i1, i2⟩ := ih h1
        refine ⟨fun y hy => ?_, fun y hy => List.mem_cons_of_mem _ (i2 y hy)⟩
        rcases List.mem_cons.mp hy with rfl | hy
        · simp
        · exact List.mem_cons_of_mem _ (i1 y hy)
      simp only [splitParen] at h
      split at h
      · exact hmap h
      · split at h
        · split at h
          · cases h; exact ⟨by simp, fun y hy => List.mem_cons_of_mem _ hy⟩
          · exact hmap h
        · exact hmap h
  have mono : ∀ {s t : Str} {x : Str}, (∀ y ∈ s, y ∈ t) →
      (∃ u, isUpper u = true ∧ u ∈ s ∧ (x = [u] ∨ ∃ d, isLower d = true ∧ d ∈ s ∧ x = [u, d])) →
      (∃ u, isUpper u = true ∧ u ∈ t ∧ (x = [u] ∨ ∃ d, isLower d = true ∧ d ∈ t ∧ x = [u, d])) := by
    rintro s t x hst ⟨u, h1, h2, h3⟩
    refine ⟨u, h1, hst u h2, h3.imp id ?_⟩
    rintro ⟨d, h4, h5, h6⟩
    exact ⟨d, h4, hst d h5, h6⟩
  have hdrop : ∀ {s : Str} {y : Char}, y ∈ s.dropWhile isDigit → y ∈ s := fun hy =>
    (List.dropWhile_sublist _).subset hy
  generalize hn : s.length = n
  induction n using Nat.strong_induction_on generalizing s l with
  | _ n ih =>
    intro x hx
    cases s with
    | nil => cases h; simp at hx
    | cons c cs =>
      simp only [List.length_cons] at hn
      by_cases h1 : isDigit c = true
      · rw [s2s_digit h1] at h
        cases hr : string2symbols (cs.dropWhile isDigit) with
        | error e => rw [hr] at h; cases h
        | ok r =>
          rw [hr] at h; cases h
          have hl := length_dropWhile_le isDigit cs
          exact mono (fun y hy => List.mem_cons_of_mem _ (hdrop hy))
            (ih _ (by omega) _ _ hr rfl x (hrep hx))
      · by_cases h2 : c = '('
        · subst h2
          rw [s2s_paren] at h
          have hl := parts_length cs
          have hm : (∀ y ∈ ((splitParen 0 cs).getD (cs.dropLast, [])).1, y ∈ cs) ∧
              (∀ y ∈ ((splitParen 0 cs).getD (cs.dropLast, [])).2, y ∈ cs) := by
            cases hp : splitParen 0 cs with
            | none => exact ⟨fun y hy => (List.dropLast_sublist cs).subset hy, by simp⟩
            | some r => exact hsp (show splitParen 0 cs = some (r.1, r.2) from hp)
          generalize (splitParen 0 cs).getD (cs.dropLast, []) = ia at h hl hm
          have hl2 := length_dropWhile_le isDigit ia.2
          cases hr : string2symbols ia.1 with
          | error e => rw [hr] at h; cases h
          | ok r =>
            rw [hr] at h
            cases hr' : string2symbols (ia.2.dropWhile isDigit) with
            | error e => rw [hr'] at h; cases h
            | ok r' =>
              rw [hr'] at h; cases h
              rcases List.mem_append.mp hx with hx | hx
              · exact mono (fun y hy => List.mem_cons_of_mem _ (hm.1 y hy))
                  (ih _ (by omega) _ _ hr rfl x (hrep hx))
              · exact mono (fun y hy => List.mem_cons_of_mem _ (hm.2 y (hdrop hy)))
                  (ih _ (by omega) _ _ hr' rfl x hx)
        · by_cases h3 : isUpper c = true
          · by_cases h4 : ∃ d ds, cs = d :: ds ∧ isLower d = true
            · obtain ⟨d, ds, rfl, hd⟩ := h4
              rw [s2s_upper_lower h3 hd] at h
              have hl := length_dropWhile_le isDigit ds
              simp only [List.length_cons] at hn
              cases hr : string2symbols (ds.dropWhile isDigit) with
              | error e => rw [hr] at h; cases h
              | ok r =>
                rw [hr] at h; cases h
                rcases List.mem_append.mp hx with hx | hx
                · have := hrep hx
                  simp only [List.mem_singleton] at this
                  subst this
                  exact ⟨c, h3, by simp, Or.inr ⟨d, hd, by simp, rfl⟩⟩
                · exact mono (fun y hy => by simp [hdrop hy])
                    (ih _ (by omega) _ _ hr rfl x hx)
            · rw [s2s_upper h3 (fun d hd => by
                cases cs with
                | nil => simp at hd
                | cons e es =>
                  simp at hd; subst hd
                  cases he : isLower e
                  · rfl
                  · exact absurd ⟨e, es, rfl, he⟩ h4)] at h
              have hl := length_dropWhile_le isDigit cs
              cases hr : string2symbols (cs.dropWhile isDigit) with
              | error e => rw [hr] at h; cases h
              | ok r =>
                rw [hr] at h; cases h
                rcases List.mem_append.mp hx with hx | hx
                · have := hrep hx
                  simp only [List.mem_singleton] at this
                  subst this
                  exact ⟨c, h3, by simp, Or.inl rfl⟩
                · exact mono (fun y hy => by simp [hdrop hy])
                    (ih _ (by omega) _ _ hr rfl x hx)
          · rw [s2s_bad (by simpa using h1) h2 (by simpa using h3)] at h
            cases h

/-- A text that starts with anything but a digit, an upper case letter or an opening
parenthesis raises `ValueError`; so does such a character after a complete formula. -/
theorem C58_malformed_rejected (c : Char) (cs : Str) (h1 : isDigit c = false) (h2 : c ≠ '(')
    (h3 : isUpper c = false) : string2symbols (c :: cs) = .error .ValueError :=
  s2s_bad h1 h2 h3

/-- An unclosed parenthesis is not reported: its last character is silently lost. -/
theorem C58_unbalanced_parenthesis_refuted :
    string2symbols (str! "(OH") = .ok [str! "O"] ∧ string2symbols (str! "Fe(CO") = .ok [str! "Fe", str! "C"] := by
  decide

/-- The mass of a concatenation is the sum of the masses; the mass is found exactly if every
symbol is in the table. -/
theorem C58_mass_additive (a b : Chem) (ha : a.ok = true) (hb : b.ok = true) :
    molecularMass (a.text ++ b.text) =
      (do let x ← molecularMass a.text; let y ← molecularMass b.text; pure (x + y)) := by
  obtain ⟨la, lb, h1, h2, h3⟩ := C58_symbols_append a b ha hb
  simp only [molecularMass, h1, h2, h3]
  exact sumMasses_append la lb

/-- An element missing from the table is reported, wherever it occurs in the formula. -/
theorem C58_mass_unknown_element (c : Chem) (h : c.ok = true) (x : Str) (hx : 0 < c.count x)
    (hm : elementMass x = none) : molecularMass c.text = .error .ElementSearchingError := by
  simp only [molecularMass, s2s_chem h]
  apply sumMasses_error
  refine ⟨x, ?_, hm⟩
  rw [← List.count_pos_iff, count_chemSymbols]
  exact hx

/-- `Fe3(CO)2(2OH)4`: nested counts. -/
def exChem : Chem :=
  .sym 'F' (some 'e') (some 3) (.group none (.sym 'C' none none (.sym 'O' none none .nil)) (some 2)
    (.group (some 2) (.sym 'O' none none (.sym 'H' none none .nil)) (some 4) .nil))
example : exChem.ok = true ∧ exChem.text = str! "Fe3(CO)2(2OH)4" ∧ exChem.count (str! "O") = 10 ∧
    exChem.count (str! "Fe") = 3 ∧ elementMass (str! "Fe") = none := by decide
example : isDigit '-' = false ∧ '-' ≠ '(' ∧ isUpper '-' = false := by decide

/-! ## C05 accepted reactions conserve mass -/

/-- The reported mass of a species; empty sites weigh nothing. -/
def speciesMass : Spec.Species → Py ℚ
  | .emptySite => .ok 0
  | .mol ts => molecularMass (Spec.Species.mol ts).text

/-- Total mass of a state: sum over the molecules of coefficient times the reported mass. -/
def stateMass : Spec.State → Py ℚ
  | [] => .ok 0
  | f :: fs => do
    let m ← speciesMass f.sp
    let rest ← stateMass fs
    pure (f.coefficient * m + rest)

/-- Species written with one-letter symbols of the element table only. -/
def simpleSpecies : Spec.Species → Prop
  | .emptySite => True
  | .mol ts => ∀ t ∈ ts, ∃ c n, t = .elem c n ∧ c ∈ ['H', 'C', 'N', 'O', 'F', 'S']

/-- Mass of a one-letter symbol. -/
def letterMass (c : Char) : ℚ := (elementMass [c]).getD 0

def chemOfToks : List Spec.Tok → Chem
  | [] => .nil
  | .elem c n :: ts => .sym c none n (chemOfToks ts)
  | .dash :: ts => chemOfToks ts

theorem chemOfToks_spec {ts : List Spec.Tok}
    (h : ∀ t ∈ ts, ∃ c n, t = .elem c n ∧ c ∈ ['H', 'C', 'N', 'O', 'F', 'S']) :
    (chemOfToks ts).ok = true ∧ (chemOfToks ts).text = ts.flatMap Spec.Tok.text ∧
    (∀ x ∈ chemSymbols (chemOfToks ts), ∃ c ∈ ['H', 'C', 'N', 'O', 'F', 'S'], x = [c]) ∧
    ((chemSymbols (chemOfToks ts)).map fun x => (elementMass x).getD 0).sum =
      (['H', 'C', 'N', 'O', 'F', 'S'].map fun c => ((ts.map (Spec.Tok.count c)).sum : ℚ) * letterMass c).sum := by
  induction ts with
  | nil => simp [chemOfToks, chemSymbols, Chem.ok, Chem.text]
  | cons t ts ih =>
    obtain ⟨i1, i2, i3, i4⟩ := ih (fun u hu => h u (by simp [hu]))
    obtain ⟨c, n, rfl, hc⟩ := h t (by simp)
    refine ⟨?_, ?_, ?_, ?_⟩
    · simp only [chemOfToks, Chem.ok, i1, Option.all_none, Bool.and_true]
      simp only [List.mem_cons, List.not_mem_nil, or_false] at hc
      rcases hc with rfl | rfl | rfl | rfl | rfl | rfl <;> decide
    · simp [chemOfToks, Chem.text, i2, Spec.Tok.text]
    · intro x hx
      simp only [chemOfToks, chemSymbols, List.mem_append] at hx
      rcases hx with hx | hx
      · simp only [rep, List.mem_flatten, List.mem_replicate] at hx
        obtain ⟨y, ⟨-, rfl⟩, hx⟩ := hx
        exact ⟨c, hc, by simpa using hx⟩
      · exact i3 x hx
    · have hrep : ∀ m : Nat, ((rep m [[c]]).map fun x => (elementMass x).getD 0).sum = m * letterMass c := by
        intro m
        induction m with
        | zero => simp [rep]
        | succ m ihm =>
          have : rep (m + 1) [[c]] = [c] :: rep m [[c]] := by simp [rep, List.replicate_succ]
          rw [this, List.map_cons, List.sum_cons, ihm]
          push_cast
          simp only [letterMass]; ring
      simp only [chemOfToks, chemSymbols, List.map_append, List.sum_append, i4, Option.toList_none]
      rw [hrep]
      simp only [List.map_cons, List.map_nil, List.sum_cons, List.sum_nil, Spec.Tok.count]
      simp only [List.mem_cons, List.not_mem_nil, or_false] at hc
      rcases hc with rfl | rfl | rfl | rfl | rfl | rfl <;> simp <;> ring

theorem stateMass_simple {s : Spec.State} (h : ∀ f ∈ s, simpleSpecies f.sp) :
    stateMass s = .ok (['H', 'C', 'N', 'O', 'F', 'S'].map fun c => (s.count c : ℚ) * letterMass c).sum := by
  induction s with
  | nil => simp [stateMass, Spec.State.count]
  | cons f s ih =>
    have hf := h f (by simp)
    have hm : speciesMass f.sp =
        .ok (['H', 'C', 'N', 'O', 'F', 'S'].map fun c => (f.sp.count c : ℚ) * letterMass c).sum := by
      cases hsp : f.sp with
      | emptySite => simp [Spec.Species.count, speciesMass]
      | mol ts =>
        rw [hsp] at hf
        obtain ⟨h1, h2, h3, h4⟩ := chemOfToks_spec hf
        show molecularMass (ts.flatMap Spec.Tok.text) = _
        rw [← h2]
        simp only [molecularMass, s2s_chem h1]
        rw [sumMasses_ok (g := fun x => (elementMass x).getD 0), h4]
        · simp [Spec.Species.count]
        · intro e he
          obtain ⟨c, hc, rfl⟩ := h3 e he
          simp only [List.mem_cons, List.not_mem_nil, or_false] at hc
          rcases hc with rfl | rfl | rfl | rfl | rfl | rfl <;> rfl
    simp only [stateMass, hm, ih (fun g hg => h g (by simp [hg]))]
    simp only [bind, Except.bind, pure, Except.pure, Spec.State.count, List.map_cons, List.sum_cons,
      List.map_nil, List.sum_nil, Spec.Formula.count]
    congr 1
    push_cast
    ring

/-- An accepted reaction over species written with one-letter symbols of the element table has
the same total mass in every state. Missing for the full statement: two-letter symbols, for
which it is false (`C05_two_letter_elements_refuted`). -/
theorem C05_mass_conserved_partial (r : Spec.Rxn) (r1 r2 : Bool) (h : r.ok = true)
    (hs : ∀ s ∈ r.states, ∀ f ∈ s, simpleSpecies f.sp)
    (hc : checkConservation (r.text r1 r2) = .ok true) :
    ∃ m, ∀ s ∈ r.states, stateMass s = .ok m := by
  have hb := accepted_balanced h hc
  obtain ⟨s0, hs0⟩ : ∃ s0, s0 ∈ r.states := by
    cases r <;> exact ⟨_, List.mem_cons_self⟩
  refine ⟨(['H', 'C', 'N', 'O', 'F', 'S'].map fun c => (s0.count c : ℚ) * letterMass c).sum, fun s hss => ?_⟩
  rw [stateMass_simple (hs s hss)]
  have : ∀ c, s.count c = s0.count c := fun c => (hb s hss s0 hs0).1 c
  simp only [this]

/-- `CO_g + *_s -> CO_s` meets the hypotheses. -/
example : exAds.ok = true ∧ (∀ s ∈ exAds.states, ∀ f ∈ s, simpleSpecies f.sp) ∧
    checkConservation (exAds.text false false) = .ok true := by
  refine ⟨by decide, ?_, by decide⟩
  intro s hs f hf
  simp [exAds, Spec.Rxn.states] at hs
  rcases hs with rfl | rfl <;> simp at hf
  · rcases hf with rfl | rfl <;> simp [simpleSpecies]
  · subst hf; simp [simpleSpecies]

/-- With two-letter symbols the property is false: the check counts letters, so carbon and the
`C` of chlorine are the same to it. `Cl2_g + C_s + *_s -> 2Cl_s` is accepted and 12 mass units
vanish. -/
theorem C05_two_letter_elements_refuted :
    checkConservation (str! "Cl2_g + C_s + *_s -> 2Cl_s") = .ok true ∧
    (∃ a b c, molecularMass (str! "Cl2") = .ok a ∧ molecularMass (str! "C") = .ok b ∧
      molecularMass (str! "Cl") = .ok c ∧ a + b ≠ 2 * c) := by
  refine ⟨by decide, _, _, _, rfl, rfl, rfl, ?_⟩
  norm_num

/-! ### The theorems at these cases -/

example := C58_symbols_multiplicity exChem (by decide)

example := C58_symbols_append exChem exChem (by decide) (by decide)

example := C58_leading_multiplier 2 exChem (by decide) (str! "O")

example := C58_symbols_wellformed (str! "H2O") [str! "H", str! "H", str! "O"] (by decide)

example := C58_malformed_rejected '-' (str! "CO") (by decide) (by decide) (by decide)

example := C58_mass_additive exChem exChem (by decide) (by decide)

example := C58_mass_unknown_element exChem (by decide) (str! "Fe") (by decide) (by decide)

end Verif
