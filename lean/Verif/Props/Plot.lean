import Verif.Model.Plot
import Verif.Lemmas.Chars
import Verif.Lemmas.Dict
import Verif.Lemmas.Rxn
import Verif.Model.Network
import Mathlib.Tactic.Linarith
import Mathlib.Tactic.NormNum
/- C94 Images of energy profiles. -/
namespace Verif
open Dict
section
variable {K : Type} [Field K] [LinearOrder K] [IsStrictOrderedRing K]

/-- A drawn profile of a reaction with barrier `Ga` and reaction energy `dG`: it starts at zero, ends at the reaction
energy, contains no other energy than the barrier, and contains it unless it is less than 0.00001. -/
structure IsProfile (p : List K) (Ga dG : K) : Prop where
  start : p.head? = some 0
  stop : p.getLast? = some dG
  only : ∀ x ∈ p.tail.dropLast, x = Ga
  once : p.length ≤ 3
  barrier : 1 / 100000 ≤ |Ga| → Ga ∈ p.tail.dropLast
  none : |Ga| < 1 / 100000 → p.tail.dropLast = []

omit [IsStrictOrderedRing K] in
theorem profilePoints_spec (Ga dG : K) : IsProfile (profilePoints Ga dG) Ga dG := by
  unfold profilePoints
  split
  · rename_i h
    exact ⟨rfl, rfl, by simp, by simp, fun h' => absurd h (not_lt.mpr h'), fun _ => rfl⟩
  · rename_i h
    exact ⟨rfl, rfl, by simp, by simp, fun _ => by simp, fun h' => absurd h' h⟩

/-- The highest point of a drawn profile is the highest of start, barrier and end, up to 0.00001. -/
theorem IsProfile.peak {p : List K} {Ga dG : K} (h : IsProfile p Ga dG) :
    ∃ m ∈ p, (∀ x ∈ p, x ≤ m) ∧ |m - max 0 (max Ga dG)| < 1 / 100000 := by
  have e : (0 : K) < 1 / 100000 := by norm_num
  obtain ⟨h1, h2, h3, h4, h5, h6⟩ := h
  match p with
  | [] => exact nomatch h1
  | [a] =>
    obtain rfl : a = 0 := by simpa using h1
    obtain rfl : dG = 0 := by simpa using h2.symm
    have hg : |Ga| < 1 / 100000 := by
      by_contra hc
      simpa using h5 (not_lt.mp hc)
    refine ⟨0, by simp, by simp, ?_⟩
    obtain ⟨g1, g2⟩ := abs_lt.mp hg
    rw [abs_lt]
    constructor <;> [skip; skip] <;> rcases le_total Ga 0 with h0 | h0 <;> simp [h0] <;> linarith
  | [a, b] =>
    obtain rfl : a = 0 := by simpa using h1
    obtain rfl : b = dG := by simpa using h2
    have hg : |Ga| < 1 / 100000 := by
      by_contra hc
      simpa using h5 (not_lt.mp hc)
    refine ⟨max 0 b, by rcases max_choice 0 b with h | h <;> rw [h] <;> simp, by simp, ?_⟩
    obtain ⟨g1, g2⟩ := abs_lt.mp hg
    rcases le_total 0 b with h0 | h0 <;> rcases le_total Ga b with h7 | h7 <;> rcases le_total 0 Ga with h8 | h8 <;>
      simp only [max_eq_left, max_eq_right, h0, h7, h8, sub_self, abs_zero, e] <;> rw [abs_lt] <;> constructor <;> linarith
  | [a, b, c] =>
    obtain rfl : a = 0 := by simpa using h1
    obtain rfl : c = dG := by simpa using h2
    obtain rfl : b = Ga := by simpa using h3
    refine ⟨max 0 (max b c), ?_, by simp, by simp⟩
    rcases max_choice 0 (max b c) with h | h <;> rw [h]
    · simp
    · rcases max_choice b c with h | h <;> rw [h] <;> simp
  | _ :: _ :: _ :: _ :: _ => simp at h4; omega

theorem imageName_inj {i j : Nat} {r s : Str} (h : imageName i r = imageName j s) : i = j := by
  unfold imageName at h
  have hd : ∀ (i : Nat) (r : Str), (Nat.toDigits 10 i ++ '_' :: r ++ str! ".png").takeWhile isDigit = Nat.toDigits 10 i := by
    intro i r
    rw [List.append_assoc, List.takeWhile_append_of_pos (digits_toDigits i)]
    simp [isDigit]
  have := congrArg (List.takeWhile isDigit) h
  rw [hd, hd] at this
  rw [← intOf_toDigits i, ← intOf_toDigits j, this]

omit [IsStrictOrderedRing K] in
/-- What one pass of the loop does. -/
theorem plotLoop_spec (kwargs : List Str) (l : List (Str × K × K)) (idx : Nat) (d : ProfileDir K) :
    let r := plotLoop kwargs idx l d
    (r.1.isOk ↔ l = [] ∨ (str! "energies" ∉ kwargs ∧ str! "rxn_equation" ∉ kwargs) ∧ ∀ p ∈ l, '/' ∉ p.1) ∧
    r.2.made = d.made ∧
    (∀ name, (∀ i p, l[i]? = some p → name ≠ imageName (idx + i) p.1) → get? r.2.images name = get? d.images name) ∧
    (r.1.isOk → ∀ (i : Nat) p, l[i]? = some p → ∃ im, get? r.2.images (imageName (idx + i) p.1) = some im ∧
      im.equation = p.1 ∧ IsProfile im.points p.2.1 p.2.2) := by
  induction l generalizing idx d with
  | nil => exact ⟨⟨fun _ => .inl rfl, fun _ => rfl⟩, rfl, fun _ _ => rfl, fun _ i p h => by simp at h⟩
  | cons q l ih =>
    obtain ⟨rxn, Ga, dG⟩ := q
    dsimp only
    unfold plotLoop
    by_cases hk : str! "energies" ∈ kwargs ∨ str! "rxn_equation" ∈ kwargs
    · have : elementaryLine (profilePoints Ga dG) rxn kwargs = .error .TypeError := by
        unfold elementaryLine; rw [if_pos hk]
      rw [this]
      refine ⟨⟨fun h => (nomatch h), ?_⟩, rfl, fun _ _ => rfl, fun h => (nomatch h)⟩
      rintro (h | h)
      · exact nomatch h
      · rcases hk with hk | hk
        · exact absurd hk h.1.1
        · exact absurd hk h.1.2
    · have : elementaryLine (profilePoints Ga dG) rxn kwargs = .ok ⟨profilePoints Ga dG, rxn⟩ := by
        unfold elementaryLine; rw [if_neg hk]
      rw [this]
      dsimp only
      rw [not_or] at hk
      by_cases hs : '/' ∈ rxn
      · rw [if_pos hs]
        refine ⟨⟨fun h => (nomatch h), ?_⟩, rfl, fun _ _ => rfl, fun h => (nomatch h)⟩
        rintro (h | h)
        · exact nomatch h
        · exact absurd hs (h.2 _ (List.mem_cons_self ..))
      · rw [if_neg hs]
        obtain ⟨h1, h2, h3, h4⟩ := ih (idx + 1) { d with images := set d.images (imageName idx rxn) ⟨profilePoints Ga dG, rxn⟩ }
        have hother : ∀ name, (∀ i p, ((rxn, Ga, dG) :: l)[i]? = some p → name ≠ imageName (idx + i) p.1) →
            ∀ i p, l[i]? = some p → name ≠ imageName (idx + 1 + i) p.1 := by
          intro name h i p hp
          have := h (i + 1) p (by simpa using hp)
          rwa [show idx + (i + 1) = idx + 1 + i by omega] at this
        refine ⟨?_, h2, ?_, ?_⟩
        · rw [h1]
          constructor
          · rintro (rfl | ⟨-, h⟩)
            · exact .inr ⟨hk, by simpa using hs⟩
            · exact .inr ⟨hk, by rw [List.forall_mem_cons]; exact ⟨hs, h⟩⟩
          · rintro (h | ⟨-, h⟩)
            · exact nomatch h
            · rw [List.forall_mem_cons] at h
              exact .inr ⟨hk, h.2⟩
        · intro name hn
          rw [h3 name (hother name hn)]
          dsimp only
          rw [get?_set, if_neg]
          exact fun he => hn 0 _ rfl (by simpa using he.symm)
        · intro hok i p hp
          cases i with
          | zero =>
            obtain rfl : (rxn, Ga, dG) = p := by simpa using hp
            refine ⟨⟨profilePoints Ga dG, rxn⟩, ?_, rfl, profilePoints_spec Ga dG⟩
            rw [h3]
            · dsimp only [Nat.add_zero]
              rw [get?_set, if_pos rfl]
            · intro j q _ he
              have := imageName_inj he
              omega
          | succ i =>
            rw [show idx + (i + 1) = idx + 1 + i by omega]
            exact h4 hok i p (by simpa using hp)

/-- **C94** If the call succeeds, each reaction with energies has an image of its own, named by its position and its
equation, that shows this equation and a profile with its own barrier and reaction energy; the images of other names stay. -/
theorem C94_profiles (rxns : List Str) (a g : List K) (gar : Option (List K)) (kwargs : List Str) (d : ProfileDir K)
    (h : (plotAll rxns ⟨some a, gar, some g⟩ kwargs d).1.isOk) :
    let d' := (plotAll rxns ⟨some a, gar, some g⟩ kwargs d).2
    d'.made = true ∧
    (∀ (i : Nat) rxn Ga dG, rxns[i]? = some rxn → a[i]? = some Ga → g[i]? = some dG →
      ∃ im, get? d'.images (imageName i rxn) = some im ∧ im.equation = rxn ∧ IsProfile im.points Ga dG ∧
        ∃ m ∈ im.points, (∀ x ∈ im.points, x ≤ m) ∧ |m - max 0 (max Ga dG)| < 1 / 100000) ∧
    (∀ name, (∀ (i : Nat) rxn, rxns[i]? = some rxn → name ≠ imageName i rxn) → get? d'.images name = get? d.images name) ∧
    (∀ (i j : Nat) r s, i ≠ j → imageName i r ≠ imageName j s) := by
  obtain ⟨-, h2, h3, h4⟩ := plotLoop_spec kwargs (rxns.zip (a.zip g)) 0 { d with made := true }
  refine ⟨h2, ?_, ?_, fun i j r s hij he => hij (imageName_inj he)⟩
  · intro i rxn Ga dG e1 e2 e3
    obtain ⟨im, i1, i2, i3⟩ := h4 h i (rxn, Ga, dG) (by
      rw [List.getElem?_zip_eq_some]
      exact ⟨e1, by rw [List.getElem?_zip_eq_some]; exact ⟨e2, e3⟩⟩)
    rw [Nat.zero_add] at i1
    exact ⟨im, i1, i2, i3, i3.peak⟩
  · intro name hn
    refine h3 name ?_
    intro i p hp
    rw [List.getElem?_zip_eq_some] at hp
    rw [Nat.zero_add]
    exact hn i p.1 hp.1

omit [IsStrictOrderedRing K] in
/-- **C94** It succeeds exactly if the energies are there, neither `energies` nor `rxn_equation` is given and no equation
contains a slash; without energies it is a `KeyError`, and no image is made or changed. -/
theorem C94_succeeds (rxns : List Str) (rel : RelDict K) (kwargs : List Str) (d : ProfileDir K) :
    (∀ a g, rel.gaf = some a → rel.dg = some g → a.length = rxns.length → g.length = rxns.length → rxns ≠ [] →
      ((plotAll rxns rel kwargs d).1.isOk ↔
        (str! "energies" ∉ kwargs ∧ str! "rxn_equation" ∉ kwargs) ∧ ∀ r ∈ rxns, '/' ∉ r)) ∧
    (rel.gaf = none ∨ rel.dg = none → (plotAll rxns rel kwargs d).1 = .error .KeyError ∧
      (plotAll rxns rel kwargs d).2.images = d.images) := by
  constructor
  · intro a g h1 h2 l1 l2 hne
    have := (plotLoop_spec kwargs (rxns.zip (a.zip g)) 0 { d with made := true }).1
    unfold plotAll
    rw [h1, h2]
    refine this.trans ?_
    have hmap : (rxns.zip (a.zip g)).map (·.1) = rxns := by
      rw [← List.unzip_fst, List.unzip_zip (by simp [l1, l2])]
    have hl : rxns.zip (a.zip g) ≠ [] := by
      intro h0
      rw [h0] at hmap
      exact hne hmap.symm
    have : (∀ p ∈ rxns.zip (a.zip g), '/' ∉ p.1) ↔ ∀ r ∈ rxns, '/' ∉ r := by
      conv_rhs => rw [← hmap]
      simp only [List.mem_map, forall_exists_index, and_imp, forall_apply_eq_imp_iff₂]
    rw [this]
    exact ⟨fun h => h.resolve_left hl, .inr⟩
  · intro h
    unfold plotAll
    cases h1 : rel.gaf with
    | none => exact ⟨rfl, rfl⟩
    | some a =>
      cases h2 : rel.dg with
      | none => exact ⟨rfl, rfl⟩
      | some g =>
        rcases h with h | h
        · rw [h1] at h; exact nomatch h
        · rw [h2] at h; exact nomatch h
end

/-- **C94** Reactions written in the notation of the documentation contain no slash. -/
theorem C94_written (r : Spec.Rxn) (r1 r2 : Bool) (h : r.ok = true) : '/' ∉ r.text r1 r2 := by
  have hnum : ∀ n, '/' ∉ Spec.numText n := fun n hc => absurd (numText_digits n _ hc) (by decide)
  have hsp : ∀ sp : Spec.Species, sp.ok = true → '/' ∉ sp.text := by
    intro sp hok hc
    cases sp with
    | emptySite => simp [Spec.Species.text] at hc
    | mol ts =>
      obtain ⟨t, ht, hc⟩ := List.mem_flatMap.mp hc
      have := List.all_eq_true.mp hok t ht
      cases t with
      | elem c n =>
        rcases List.mem_cons.mp hc with e | hc
        · rw [← e] at this
          exact absurd (show isLetter '/' = true from this) (by decide)
        · exact hnum n hc
      | dash => simp [Spec.Tok.text] at hc
  have hf : ∀ f : Spec.Formula, f.ok = true → '/' ∉ f.text := by
    intro f hok hc
    unfold Spec.Formula.ok at hok
    simp only [Bool.and_eq_true, List.all_eq_true] at hok
    obtain ⟨⟨h1, -⟩, h3⟩ := hok
    unfold Spec.Formula.text Spec.Formula.speciesSite at hc
    simp only [List.mem_append, List.mem_cons] at hc
    rcases hc with hc | hc | hc | hc | hc
    · exact hnum _ hc
    · exact hsp _ h1 hc
    · exact absurd hc (by decide)
    · exact hnum _ hc
    · exact absurd (h3 _ hc) (by decide)
  have hjoin : ∀ l : List Str, (∀ t ∈ l, '/' ∉ t) → '/' ∉ joinWith (str! " + ") l := by
    intro l
    induction l with
    | nil => intro _ hc; exact nomatch hc
    | cons a l ih =>
      intro hl
      rw [List.forall_mem_cons] at hl
      cases l with
      | nil => exact hl.1
      | cons b l =>
        intro hc
        rw [joinWith] at hc
        simp only [List.mem_append] at hc
        rcases hc with hc | hc
        · simp_all
        · exact ih hl.2 hc
  have hs : ∀ st : Spec.State, Spec.State.ok st = true → '/' ∉ Spec.State.text st := by
    intro st hok
    unfold Spec.State.ok at hok
    simp only [Bool.and_eq_true, List.all_eq_true] at hok
    refine hjoin _ ?_
    intro t ht
    obtain ⟨f, h1, rfl⟩ := List.mem_map.mp ht
    exact hf f (hok.2 f h1)
  have ha : ∀ b, '/' ∉ Spec.arrowText b := by decide
  have hall : ∀ st ∈ r.states, Spec.State.ok st = true := List.all_eq_true.mp h
  cases r with
  | two a b =>
    have h1 := hs a (hall a (by simp [Spec.Rxn.states]))
    have h2 := hs b (hall b (by simp [Spec.Rxn.states]))
    simp [Spec.Rxn.text, h1, h2, ha]
  | three a b c =>
    have h1 := hs a (hall a (by simp [Spec.Rxn.states]))
    have h2 := hs b (hall b (by simp [Spec.Rxn.states]))
    have h3 := hs c (hall c (by simp [Spec.Rxn.states]))
    simp [Spec.Rxn.text, h1, h2, h3, ha]

example : (Spec.Rxn.two [⟨none, .mol [.elem 'C' none, .elem 'O' none], none, str! "g"⟩, ⟨none, .emptySite, none, str! "s"⟩]
    [⟨none, .mol [.elem 'C' none, .elem 'O' none], none, str! "s"⟩]).ok = true := by decide

/-- The parser reads over a slash, so a model can have such a reaction; its image cannot be saved. -/
theorem C94_slash_refuted : ∃ rxns : List Str, (parseNetwork rxns).isOk ∧
    (plotAll rxns ⟨some [(0 : ℚ)], none, some [-1]⟩ [] ⟨false, []⟩).1 = .error .IOError :=
  ⟨[str! "CO_g + *_s -> CO_s /Pt"], by decide +kernel, rfl⟩

/-- **C94** (refuted) Without energies nothing can be drawn, but the directory for the pictures is made before this is noticed. -/
theorem C94_directory_refuted (rxns : List Str) (rel : RelDict ℚ) (kwargs : List Str) (d : ProfileDir ℚ) (h : rel.gaf = none ∨ rel.dg = none) :
    plotAll rxns rel kwargs d = (.error .KeyError, ⟨true, d.images⟩) := by
  unfold plotAll
  rcases h with h | h
  · rw [h]
  · rw [h]; cases rel.gaf <;> rfl

example : (⟨some [0], none, none⟩ : RelDict ℚ).dg = none := rfl

/-- The arguments `energies` and `rxn_equation` are documented, but giving one of them always raises. -/
theorem C94_documented_refuted (x : Str) (hx : x = str! "energies" ∨ x = str! "rxn_equation") (rxn : Str) (rxns : List Str)
    (Ga dG : ℚ) (a g : List ℚ) (gar : Option (List ℚ)) (d : ProfileDir ℚ) :
    (plotAll (rxn :: rxns) ⟨some (Ga :: a), gar, some (dG :: g)⟩ [x] d).1 = .error .TypeError := by
  rcases hx with rfl | rfl <;> rfl

/-- Reactions without energies are left out without an error. -/
theorem C94_short_refuted : ∃ (rxns : List Str) (rel : RelDict ℚ),
    (plotAll rxns rel [] ⟨false, []⟩).1 = .ok () ∧ rxns.length = 2 ∧ (plotAll rxns rel [] ⟨false, []⟩).2.images.length = 1 :=
  ⟨[str! "CO_g + *_s -> CO_s", str! "O2_g + 2*_s -> 2O_s"], ⟨some [0], none, some [-1]⟩, rfl, rfl, rfl⟩

/-- Two reactions, the second with a barrier. -/
example : (fun r : Py Unit × ProfileDir ℚ => r.1.isOk = true ∧ r.2.images = [(str! "0_CO_g + *_s -> CO_s.png", ⟨[0, -1], str! "CO_g + *_s -> CO_s"⟩),
      (str! "1_CO_s + O_s <-> CO-O_2s -> CO2_g + 2*_s.png", ⟨[0, 3 / 5, -1 / 2], str! "CO_s + O_s <-> CO-O_2s -> CO2_g + 2*_s"⟩)])
    (plotAll [str! "CO_g + *_s -> CO_s", str! "CO_s + O_s <-> CO-O_2s -> CO2_g + 2*_s"] ⟨some [0, 3 / 5], none, some [-1, -1 / 2]⟩ [] ⟨false, []⟩) := by
  decide +kernel

/-! ### The theorems at these cases -/

example := C94_profiles [str! "CO_g + *_s -> CO_s"] [(0 : ℚ)] [-1] none [] ⟨false, []⟩ (by decide +kernel)

example := C94_written (Spec.Rxn.two [⟨none, .mol [.elem 'C' none, .elem 'O' none], none, str! "g"⟩, ⟨none, .emptySite, none, str! "s"⟩]
    [⟨none, .mol [.elem 'C' none, .elem 'O' none], none, str! "s"⟩]) true false (by decide)

example := C94_directory_refuted [str! "CO_g + *_s -> CO_s"] ⟨some [0], none, none⟩ [] ⟨false, []⟩ (.inr rfl)

example := C94_documented_refuted (str! "energies") (.inl rfl) (str! "CO_g + *_s -> CO_s") [] 0 (-1) [] [] none ⟨false, []⟩

end Verif
