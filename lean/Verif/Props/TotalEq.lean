import Verif.Model.TotalEq
import Verif.Lemmas.Balance
import Verif.Lemmas.Conserve
import Mathlib.Algebra.Order.Floor.Ring
import Mathlib.Tactic.Linarith
import Mathlib.Tactic.FieldSimp
import Mathlib.Data.Rat.Floor
/-
The total reaction equation (C79).
-/
set_option linter.unusedSectionVars false
namespace Verif
open Dict

/-! ### Texts of states -/

/-- Texts that can stand in a state. -/
def PlainTerm (s : Str) : Prop := s ≠ [] ∧ ∀ c ∈ s, isSpace c = false ∧ c ≠ '+' ∧ notAngle c = true

theorem stateSplit_join {ts : List Str} (hne : ts ≠ []) (hok : ∀ t ∈ ts, PlainTerm t) : stateSplit (joinWith (str! " + ") ts) = ts := by
  unfold stateSplit
  induction ts with
  | nil => exact absurd rfl hne
  | cons f fs ih =>
    have hf := (hok f (by simp)).2
    have htrim : Trim f := trim_of_no_space (fun c hc => (hf c hc).1)
    have hplus : '+' ∉ f := fun hc => (hf _ hc).2.1 rfl
    cases fs with
    | nil =>
      simp only [joinWith]
      rw [splitOn_no hplus]
      simp [strip_trim htrim]
    | cons g gs =>
      have ih := ih (by simp) (fun f hf => hok f (by simp [hf]))
      simp only [joinWith] at ih ⊢
      have hs : f ++ str! " + " ++ joinWith (str! " + ") (g :: gs)
          = (f ++ [' ']) ++ '+' :: (' ' :: joinWith (str! " + ") (g :: gs)) := by simp
      rw [hs, splitOn_append (by simp [hplus]), List.map_cons]
      have h1 : strip (f ++ [' ']) = f := by
        have := strip_pad (a := []) (s := f) (b := [' ']) (by simp) (by simp; decide) htrim
        simpa using this
      rw [h1]
      congr 1
      have hsplit : ∀ (t : Str), (splitOn '+' (' ' :: t)).map strip = (splitOn '+' t).map strip := by
        intro t
        simp only [splitOn, show ¬ (' ' = '+') by decide, if_false]
        rcases hsp : splitOn '+' t with _ | ⟨h, tl⟩
        · exact absurd hsp (splitOn_ne_nil _ _)
        · simp only [List.map_cons]
          congr 1
      rw [hsplit, ih]

theorem join_notAngle {ts : List Str} (hok : ∀ t ∈ ts, PlainTerm t) : ∀ c ∈ joinWith (str! " + ") ts, notAngle c = true := by
  intro c hc
  rcases joinWith_mem hc with h | ⟨x, hx, h⟩
  · revert h
    clear hc
    revert c
    decide
  · exact ((hok x hx).2 c h).2.2

theorem join_trim {ts : List Str} (hok : ∀ t ∈ ts, PlainTerm t) : Trim (joinWith (str! " + ") ts) := by
  by_cases hne : ts = []
  · subst hne; exact ⟨by simp [joinWith], by simp [joinWith]⟩
  constructor
  · intro c hc
    cases ts with
    | nil => exact absurd rfl hne
    | cons f fs =>
      have hf := hok f (by simp)
      cases hft : f with
      | nil => exact absurd hft hf.1
      | cons a as =>
        have : c = a := by
          cases fs with
          | nil => simpa [joinWith, hft, eq_comm] using hc
          | cons g gs => simpa [joinWith, hft, eq_comm] using hc
        rw [this]
        exact (hf.2 a (by simp [hft])).1
  · intro c hc
    rw [joinWith_getLast hne (fun x hx => (hok x hx).1)] at hc
    exact ((hok _ (List.getLast_mem hne)).2 c (List.mem_of_getLast? hc)).1

theorem stateSplit_nil : stateSplit [] = [[]] := by decide

/-! ### Formulas of a total equation -/

theorem toDigits_digit (k : Nat) : ∀ c ∈ Nat.toDigits 10 k, isDigit c = true := numText_digits (some k)

/-- The formula that stands for a coefficient and a name. -/
def termFormula (k : Int) (x : Str) : Formula :=
  match chemFormula (totalTerm k x) with
  | .ok f => f
  | .error _ => ⟨[], 0, [], 0, [], []⟩

theorem totalTerm_chars {f : Formula} {ns : Str} (g : Good f ns) (k : Int) : PlainTerm (totalTerm k f.speciesSite) := by
  have h : ∀ c, (isDigit c = true ∨ isSpChar c = true ∨ isSiteChar c = true ∨ c = '_') → isSpace c = false ∧ c ≠ '+' ∧ notAngle c = true := by
    intro c hc
    have hc' : isLetter c = true ∨ isDigit c = true ∨ c.toNat = 95 ∨ c.toNat = 42 ∨ c.toNat = 45 := by
      rcases hc with hc | hc | hc | hc
      · exact .inr (.inl hc)
      · exact (isSpChar_iff c).mp hc
      · rcases (isSiteChar_iff c).mp hc with h | h <;> simp [h]
      · subst hc; exact .inr (.inr (.inl rfl))
    rw [isLetter_iff, isDigit_iff] at hc'
    refine ⟨?_, ?_, ?_⟩
    · rw [Bool.eq_false_iff, Ne, isSpace_iff]; omega
    · rw [Ne, char_eq_iff]; simp; omega
    · simp only [notAngle, Bool.and_eq_true, bne_iff_ne, Ne, char_eq_iff]
      simp; omega
  constructor
  · unfold totalTerm
    rw [g.name]
    simp
  · intro c hc
    unfold totalTerm at hc
    rw [g.name] at hc
    simp only [List.mem_append, List.mem_cons] at hc
    apply h
    rcases hc with hc | hc | hc | hc | hc
    · split at hc
      · cases hc
      · exact .inl (toDigits_digit _ c hc)
    · exact .inr (.inl (g.sp c hc))
    · exact .inr (.inr (.inr hc))
    · exact .inl (g.num c hc)
    · exact .inr (.inr (.inl (g.site c hc)))

theorem chemFormula_term {f : Formula} {ns : Str} (g : Good f ns) (k : Int) :
    chemFormula (totalTerm k f.speciesSite) = .ok (termFormula k f.speciesSite) ∧
    (termFormula k f.speciesSite).stoich = k.natAbs ∧ (termFormula k f.speciesSite).speciesSite = f.speciesSite ∧
    (termFormula k f.speciesSite).species = f.species ∧ (termFormula k f.speciesSite).site = f.site := by
  have hds : ∀ c ∈ (if k.natAbs = 1 then [] else Nat.toDigits 10 k.natAbs), isDigit c = true := by
    split
    · simp
    · exact toDigits_digit _
  have h := chemFormula_render hds g.sp g.sp0 g.num g.site g.siteNe
  have hint : intOr1 (if k.natAbs = 1 then [] else Nat.toDigits 10 k.natAbs) = k.natAbs := by
    split
    · rename_i h1; rw [h1]; rfl
    · exact intOr1_numText (some k.natAbs)
  rw [hint, ← g.name] at h
  have h' : chemFormula (totalTerm k f.speciesSite) = _ := h
  unfold termFormula
  rw [h']
  exact ⟨rfl, rfl, rfl, rfl, rfl⟩

/-! ### Numbers -/

section numbers
variable {K : Type} [Field K] [LinearOrder K] [IsStrictOrderedRing K] [FloorRing K]

omit [IsStrictOrderedRing K] [FloorRing K] in
theorem minOf_ok {l : List K} {m : K} (h : minOf l = .ok m) : m ∈ l ∧ ∀ x ∈ l, m ≤ x := by
  cases l with
  | nil => cases h
  | cons a l =>
    have key : ∀ (l : List K) (a : K), l.foldl min a ∈ a :: l ∧ ∀ x ∈ a :: l, l.foldl min a ≤ x := by
      intro l
      induction l with
      | nil => intro a; simp
      | cons b l ih =>
        intro a
        obtain ⟨h1, h2⟩ := ih (min a b)
        rw [List.foldl_cons]
        constructor
        · rcases List.mem_cons.mp h1 with h1 | h1
          · rw [h1]
            rcases min_choice a b with h | h <;> rw [h] <;> simp
          · simp [h1]
        · intro x hx
          have h3 := h2 (min a b) (by simp)
          simp only [List.mem_cons] at hx
          rcases hx with rfl | rfl | hx
          · exact h3.trans (min_le_left _ _)
          · exact h3.trans (min_le_right _ _)
          · exact h2 x (by simp [hx])
    cases h
    exact key l a

/-- Division by the smallest and truncation keep the sign and give at least one. -/
theorem pyInt_ratio {t m : K} (hm : 0 < m) (h : m ≤ |t|) :
    (pyInt (t / m) < 0 ↔ t < 0) ∧ (pyInt (t / m)).natAbs = ⌊|t| / m⌋.natAbs ∧ 1 ≤ (pyInt (t / m)).natAbs := by
  have hfl : 1 ≤ ⌊|t| / m⌋ := by
    rw [Int.le_floor, Int.cast_one, le_div_iff₀ hm, one_mul]; exact h
  unfold pyInt
  rcases le_or_gt 0 t with ht | ht
  · have h0 : 0 ≤ t / m := div_nonneg ht hm.le
    rw [abs_of_nonneg ht] at hfl ⊢
    rw [if_pos h0]
    refine ⟨⟨fun h => by omega, fun h => absurd h (not_lt.mpr ht)⟩, rfl, by omega⟩
  · have h0 : ¬ 0 ≤ t / m := not_le.mpr (div_neg_of_neg_of_pos ht hm)
    have hc : ⌈t / m⌉ = -⌊|t| / m⌋ := by
      rw [abs_of_neg ht, neg_div, Int.floor_neg, neg_neg]
    rw [if_neg h0, hc]
    refine ⟨⟨fun _ => ht, fun _ => by omega⟩, by rw [Int.natAbs_neg], by rw [Int.natAbs_neg]; omega⟩

/-- The weighted sum of the rows. -/
theorem totalCoefs_eq {rxns : List Str} {n : Network} (hn : parseNetwork rxns = .ok n) {w : List K} (hlen : w.length = rxns.length) :
    totalCoefs n w = (minOf (n.reaproCols.map fun x => |production n w x|)) >>= fun m =>
      if m = 0 then .error .ZeroDivisionError else .ok (n.reaproCols.map fun x => pyInt (-production n w x / m)) := by
  have hlen' : n.rxns.length = w.length := (length_rxns hn).trans hlen.symm
  have hrow : rowTimes n.reaproCols.length w ((n.rxns.map fun st => n.reaproCols.map fun x => - produced x st).map fun row => row.map fun (x : Int) => (x : K)) =
      n.reaproCols.map fun x => -production n w x := by
    have e : ((n.rxns.map fun st => n.reaproCols.map fun x => - produced x st).map fun row => row.map fun (x : Int) => (x : K)) =
        (n.rxns.map fun st => n.reaproCols.map fun x => (produced x st : K)).map fun row => row.map fun y => -y := by
      simp [List.map_map, Function.comp_def]
    have hneg : ∀ (k : Nat) (v : List K) (M : List (List K)), rowTimes k v (M.map fun row => row.map fun y => -y) = (rowTimes k v M).map fun y => -y := by
      intro k v
      induction v with
      | nil => intro M; cases M <;> simp [rowTimes]
      | cons a v ih =>
        intro M
        cases M with
        | nil => simp [rowTimes]
        | cons r M =>
          simp only [List.map_cons, rowTimes, ih M]
          rw [List.zipWith_map, List.map_zipWith]
          congr 1
          funext x y
          ring
    rw [e, hneg, rowTimes_eq n.reaproCols n.rxns w hlen', List.map_map]
    rfl
  unfold totalCoefs
  rw [stoich_rows hn]
  change (if w.length ≠ (n.rxns.map _).length then _ else _ : Py (List Int)) = _
  rw [List.length_map, if_neg (by rw [not_not]; exact hlen'.symm)]
  change (minOf ((rowTimes n.reaproCols.length w ((n.rxns.map fun st => n.reaproCols.map fun x => - produced x st).map fun row => row.map fun (x : Int) => (x : K))).map fun y => |y|) >>= fun m =>
    (if m = 0 then .error .ZeroDivisionError else .ok ((rowTimes n.reaproCols.length w ((n.rxns.map fun st => n.reaproCols.map fun x => - produced x st).map fun row => row.map fun (x : Int) => (x : K))).map fun y => pyInt (y / m)) : Py (List Int))) = _
  rw [hrow]
  simp only [List.map_map, Function.comp_def, abs_neg]

/-- What the coefficients are. -/
theorem totalCoefs_ok {rxns : List Str} {n : Network} (hn : parseNetwork rxns = .ok n) {w : List K} {c : List Int} (h : totalCoefs n w = .ok c) :
    w.length = rxns.length ∧ ∃ m, 0 < m ∧ (∃ x ∈ n.reaproCols, |production n w x| = m) ∧ (∀ x ∈ n.reaproCols, m ≤ |production n w x|) ∧
      c = n.reaproCols.map fun x => pyInt (-production n w x / m) := by
  have hlen : w.length = rxns.length := by
    have hc := h
    unfold totalCoefs at hc
    rw [stoich_rows hn] at hc
    obtain ⟨M, hM, hc⟩ := bind_ok.mp hc
    cases hM
    dsimp only at hc
    split at hc
    · cases hc
    rename_i hlen
    rw [not_not, List.length_map, length_rxns hn] at hlen
    exact hlen
  refine ⟨hlen, ?_⟩
  rw [totalCoefs_eq hn hlen] at h
  obtain ⟨m, hm, h⟩ := bind_ok.mp h
  obtain ⟨h1, h2⟩ := minOf_ok hm
  obtain ⟨x, hx, hxm⟩ := List.mem_map.mp h1
  split at h
  · cases h
  rename_i hm0
  cases h
  exact ⟨m, lt_of_le_of_ne (hxm ▸ abs_nonneg _) (Ne.symm hm0), ⟨x, hx, hxm⟩, fun y hy => h2 _ (List.mem_map_of_mem hy), rfl⟩

end numbers

/-! ### The text of the equation -/

/-- The names on one side. -/
def sideNames (n : Network) (k : Str → Int) (neg : Bool) : List Str := n.reaproCols.filter fun x => decide (k x < 0) = neg

/-- The text of one side. -/
def sideText (n : Network) (k : Str → Int) (neg : Bool) : Str := joinWith (str! " + ") ((sideNames n k neg).map fun x => totalTerm (k x) x)

theorem reapro_good {rxns : List Str} {n : Network} (h : parseNetwork rxns = .ok n) {x : Str} (hx : x ∈ n.reaproCols) :
    ∃ f ns, Good f ns ∧ f.speciesSite = x ∧ (f.site = ['g'] ∨ f.site = ['l']) := by
  unfold Network.reaproCols at hx
  obtain ⟨k, hk, hx⟩ : ∃ k : SpecKind, (k = .gas ∨ k = .liquid) ∧ x ∈ n.names k := by
    rcases List.mem_append.mp hx with hx | hx
    · exact ⟨.gas, .inl rfl, hx⟩
    · exact ⟨.liquid, .inr rfl, hx⟩
  obtain ⟨f, hf, hfk, hfx⟩ := (mem_names_iff h k (by rcases hk with rfl | rfl <;> decide) x).mp hx
  obtain ⟨ns, g⟩ := network_good h f ((mem_flat_iff h f).mpr hf)
  refine ⟨f, ns, g, hfx, ?_⟩
  unfold specKind at hfk
  by_cases h1 : f.site = ['g']
  · exact .inl h1
  by_cases h2 : f.site = ['l']
  · exact .inr h2
  rw [if_neg h1, if_neg h2] at hfk
  split at hfk
  · subst hfk; simp at hk
  · split at hfk <;> (subst hfk; simp at hk)

theorem term_plain {rxns : List Str} {n : Network} (h : parseNetwork rxns = .ok n) {x : Str} (hx : x ∈ n.reaproCols) (k : Int) :
    PlainTerm (totalTerm k x) := by
  obtain ⟨f, ns, g, rfl, -⟩ := reapro_good h hx
  exact totalTerm_chars g k

theorem term_formula {rxns : List Str} {n : Network} (h : parseNetwork rxns = .ok n) {x : Str} (hx : x ∈ n.reaproCols) (k : Int) :
    chemFormula (totalTerm k x) = .ok (termFormula k x) ∧ (termFormula k x).stoich = k.natAbs ∧ (termFormula k x).speciesSite = x ∧
    ((termFormula k x).site = ['g'] ∨ (termFormula k x).site = ['l']) ∧
    (∀ e, (val (speciesElements (termFormula k x).species) e : Int) = nameCount e x) ∧
    ∀ f, chemFormula x = .ok f → (termFormula k x).species = f.species := by
  obtain ⟨f, ns, g, rfl, hs⟩ := reapro_good h hx
  obtain ⟨h1, h2, h3, h4, h5⟩ := chemFormula_term g k
  refine ⟨h1, h2, h3, by rw [h5]; exact hs, fun e => by rw [h4]; exact (nameCount_good g e).symm, fun f' hf' => ?_⟩
  obtain ⟨h1', -, -, h4', -⟩ := chemFormula_term g 1
  have ht : totalTerm 1 f.speciesSite = f.speciesSite := rfl
  rw [ht, hf'] at h1'
  rw [h4, ← h4', ← Except.ok.inj h1']

theorem side_formulas {rxns : List Str} {n : Network} (h : parseNetwork rxns = .ok n) (k : Str → Int) (neg : Bool) :
    (sideNames n k neg = [] → ∀ fs, stateFormulas (sideText n k neg) ≠ .ok fs) ∧
    (sideNames n k neg ≠ [] → stateFormulas (sideText n k neg) = .ok ((sideNames n k neg).map fun x => termFormula (k x) x)) := by
  constructor
  · intro h0 fs
    unfold sideText
    rw [h0]
    have : stateFormulas [] = .error .ChemFormulaError := by decide
    rw [List.map_nil, joinWith, this]
    exact fun h => nomatch h
  · intro h0
    unfold stateFormulas sideText
    have hm : ∀ x ∈ sideNames n k neg, x ∈ n.reaproCols := fun x hx => List.mem_of_mem_filter hx
    rw [stateSplit_join (by simpa using h0) (by
      intro t ht
      obtain ⟨x, hx, rfl⟩ := List.mem_map.mp ht
      exact term_plain h (hm x hx) _)]
    clear h0
    revert hm
    generalize sideNames n k neg = l
    intro hm
    induction l with
    | nil => rfl
    | cons a l ih =>
      rw [List.map_cons, List.mapM_cons, (term_formula h (hm a (by simp)) _).1, ih fun x hx => hm x (by simp [hx])]
      rfl

theorem side_states {rxns : List Str} {n : Network} (h : parseNetwork rxns = .ok n) (k : Str → Int) :
    eqnStates (sideText n k false ++ str! " -> " ++ sideText n k true) = .ok [sideText n k false, sideText n k true] := by
  have hok : ∀ neg, ∀ t ∈ (sideNames n k neg).map (fun x => totalTerm (k x) x), PlainTerm t := by
    intro neg t ht
    obtain ⟨x, hx, rfl⟩ := List.mem_map.mp ht
    exact term_plain h (List.mem_of_mem_filter hx) _
  have := eqnStates_two (r1 := false) (join_notAngle (hok false)) (join_notAngle (hok true)) (join_trim (hok false)) (join_trim (hok true))
  rw [List.append_assoc]
  exact this

/-- The check of the finished text. -/
theorem total_check {rxns : List Str} {n : Network} (h : parseNetwork rxns = .ok n) (k : Str → Int) :
    checkConservation (sideText n k false ++ str! " -> " ++ sideText n k true) = .ok true ↔
      sideNames n k false ≠ [] ∧ sideNames n k true ≠ [] ∧
      ∀ e, get? (stateElements ((sideNames n k false).map fun x => termFormula (k x) x)) e =
        get? (stateElements ((sideNames n k true).map fun x => termFormula (k x) x)) e := by
  rw [checkConservation_iff, side_states h]
  have hsites : ∀ neg x, get? (stateSites ((sideNames n k neg).map fun x => termFormula (k x) x)) x = none := by
    intro neg x
    rw [get?_eq_none, mem_keys_stateSites]
    rintro ⟨f, hf, h1, h2, h3⟩
    obtain ⟨y, hy, rfl⟩ := List.mem_map.mp hf
    rcases (term_formula h (List.mem_of_mem_filter hy) (k y)).2.2.2.1 with hs | hs
    · exact h2 (h1.symm.trans hs)
    · exact h3 (h1.symm.trans hs)
  constructor
  · rintro ⟨a, l, e, hl⟩
    cases e
    obtain ⟨fs, gs, h1, h2, h3, -⟩ := accepts_iff.mp (hl (sideText n k true) (by simp))
    have hf : sideNames n k false ≠ [] := fun h0 => (side_formulas h k false).1 h0 _ h1
    have ht : sideNames n k true ≠ [] := fun h0 => (side_formulas h k true).1 h0 _ h2
    rw [(side_formulas h k false).2 hf] at h1
    rw [(side_formulas h k true).2 ht] at h2
    cases h1
    cases h2
    exact ⟨hf, ht, h3⟩
  · rintro ⟨h1, h2, h3⟩
    refine ⟨_, _, rfl, fun t ht => ?_⟩
    rw [List.mem_singleton] at ht
    subst ht
    exact accepts_iff.mpr ⟨_, _, (side_formulas h k false).2 h1, (side_formulas h k true).2 h2, h3, fun x => by rw [hsites, hsites]⟩

theorem checkConservation_true {s : Str} {b : Bool} (h : checkConservation s = .ok b) : b = true := by
  unfold checkConservation at h
  obtain ⟨l, -, h⟩ := bind_ok.mp h
  cases l with
  | nil => cases h
  | cons a l =>
    dsimp only at h
    obtain ⟨u, -, h⟩ := bind_ok.mp h
    cases h
    rfl

section main
variable {K : Type} [Field K] [LinearOrder K] [IsStrictOrderedRing K] [FloorRing K]

/-- The equation as a function of weights and smallest amount. -/
theorem totalEquation_ok {n : Network} {round1 : K → K} {basis : List (List K)} {w : List K}
    (hw : totalWeights round1 basis = .ok w) {k : Str → Int} (hc : totalCoefs n w = .ok (n.reaproCols.map k)) (s : Str) :
    totalEquation round1 basis n = .ok s ↔
      s = sideText n k false ++ str! " -> " ++ sideText n k true ∧ checkConservation s = .ok true := by
  have hterms : n.reaproCols.mapM (totalSide n.reaproCols (n.reaproCols.map k)) =
      .ok (n.reaproCols.map fun x => (decide (k x < 0), totalTerm (k x) x)) := by
    apply mapM_ok_map
    intro x hx
    unfold totalSide
    rw [List.getElem?_map, List.getElem?_eq_getElem (List.idxOf_lt_length_iff.mpr hx), List.getElem_idxOf]
    rfl
  have hside : ∀ neg, ((n.reaproCols.map fun x => (decide (k x < 0), totalTerm (k x) x)).filter fun p => p.1 = neg).map (·.2) =
      (sideNames n k neg).map fun x => totalTerm (k x) x := by
    intro neg
    unfold sideNames
    generalize n.reaproCols = l
    induction l with
    | nil => rfl
    | cons a l ih =>
      rw [List.map_cons, List.filter_cons, List.filter_cons]
      by_cases h : decide (k a < 0) = neg
      · simp only [h, decide_true, if_true, List.map_cons]
        rw [← ih]
      · simp only [h, decide_false]
        exact ih
  unfold totalEquation
  rw [hw]
  change (totalCoefs n w >>= fun c => _) = _ ↔ _
  rw [hc]
  simp only [bind, Except.bind, pure, Except.pure]
  rw [hterms]
  dsimp only
  rw [hside false, hside true]
  change Except.bind (checkConservation (sideText n k false ++ str! " -> " ++ sideText n k true))
    (fun _ => Except.ok (sideText n k false ++ str! " -> " ++ sideText n k true)) = _ ↔ _
  cases hcc : checkConservation (sideText n k false ++ str! " -> " ++ sideText n k true) with
  | error e =>
    constructor
    · intro h; cases h
    · rintro ⟨rfl, h⟩; rw [hcc] at h; cases h
  | ok b =>
    have hb := checkConservation_true hcc
    subst hb
    constructor
    · intro h; cases h; exact ⟨rfl, hcc⟩
    · rintro ⟨rfl, -⟩; rfl

/-- C79. An equation that is returned lists every gas and liquid exactly once, on the left if the weighted reactions
consume it and on the right if they form it, with the whole part of its amount relative to the smallest amount as
coefficient, and both sides hold the same atoms. -/
theorem C79_returned (round1 : K → K) (basis : List (List K)) (rxns : List Str) (n : Network) (hn : parseNetwork rxns = .ok n)
    (s : Str) (h : totalEquation round1 basis n = .ok s) :
    ∃ w m R P, totalWeights round1 basis = .ok w ∧ w.length = rxns.length ∧ 0 < m ∧
      (∃ x ∈ n.reaproCols, |production n w x| = m) ∧ (∀ x ∈ n.reaproCols, m ≤ |production n w x|) ∧
      eqnFormulas s = .ok [R, P] ∧ R ≠ [] ∧ P ≠ [] ∧
      R.map (fun f => (f.speciesSite, f.stoich)) =
        (n.reaproCols.filter fun x => production n w x < 0).map (fun x => (x, ⌊|production n w x| / m⌋.natAbs)) ∧
      P.map (fun f => (f.speciesSite, f.stoich)) =
        (n.reaproCols.filter fun x => 0 < production n w x).map (fun x => (x, ⌊|production n w x| / m⌋.natAbs)) ∧
      (∀ f ∈ R ++ P, 1 ≤ f.stoich) ∧
      ∀ e, (R.map fun f => f.stoich * val (speciesElements f.species) e).sum = (P.map fun f => f.stoich * val (speciesElements f.species) e).sum := by
  have h' := h
  unfold totalEquation at h'
  obtain ⟨w, hw, h'⟩ := bind_ok.mp h'
  obtain ⟨c, hc, h'⟩ := bind_ok.mp h'
  obtain ⟨hlen, m, hm, hx, hle, rfl⟩ := totalCoefs_ok hn hc
  clear h'
  obtain ⟨rfl, hcc⟩ := (totalEquation_ok hw hc s).mp h
  obtain ⟨h1, h2, h3⟩ := (total_check hn _).mp hcc
  set k : Str → Int := fun x => pyInt (-production n w x / m) with hk
  have hkx : ∀ x ∈ n.reaproCols, (k x < 0 ↔ 0 < production n w x) ∧ (k x).natAbs = ⌊|production n w x| / m⌋.natAbs ∧ 1 ≤ (k x).natAbs := by
    intro x hx
    have := pyInt_ratio (t := -production n w x) hm (by rw [abs_neg]; exact hle x hx)
    rw [abs_neg, neg_lt_zero] at this
    exact this
  have hne : ∀ x ∈ n.reaproCols, production n w x ≠ 0 := by
    intro x hx h0
    have := hle x hx
    rw [h0, abs_zero] at this
    exact absurd hm (not_lt.mpr this)
  have hmap : ∀ neg, ((sideNames n k neg).map fun x => termFormula (k x) x).map (fun f => (f.speciesSite, f.stoich)) =
      (sideNames n k neg).map (fun x => (x, ⌊|production n w x| / m⌋.natAbs)) := by
    intro neg
    rw [List.map_map]
    apply List.map_congr_left
    intro x hx
    have hx' : x ∈ n.reaproCols := List.mem_of_mem_filter hx
    have ht := term_formula hn hx' (k x)
    simp only [Function.comp_apply]
    rw [ht.2.1, ht.2.2.1, (hkx x hx').2.1]
  have hmem : ∀ neg, ∀ f ∈ (sideNames n k neg).map (fun x => termFormula (k x) x), 1 ≤ f.stoich := by
    intro neg f hf
    obtain ⟨x, hx, rfl⟩ := List.mem_map.mp hf
    have hx' : x ∈ n.reaproCols := List.mem_of_mem_filter hx
    rw [(term_formula hn hx' (k x)).2.1]
    exact (hkx x hx').2.2
  refine ⟨w, m, (sideNames n k false).map fun x => termFormula (k x) x, (sideNames n k true).map fun x => termFormula (k x) x, hw, hlen, hm, hx, hle, ?_,
    by simpa using h1, by simpa using h2, ?_, ?_, ?_, ?_⟩
  · unfold eqnFormulas
    rw [side_states hn]
    simp only [bind, Except.bind, List.mapM_cons, List.mapM_nil, (side_formulas hn k false).2 h1, (side_formulas hn k true).2 h2]
    rfl
  · rw [hmap]
    congr 1
    apply List.filter_congr
    intro x hx
    have h4 := (hkx x hx).1
    have h5 := hne x hx
    by_cases h6 : k x < 0
    · simp [h6, (h4.mp h6).le]
    · have : production n w x < 0 := lt_of_le_of_ne (not_lt.mp fun h => h6 (h4.mpr h)) h5
      simp [h6, this]
  · rw [hmap]
    congr 1
    apply List.filter_congr
    intro x hx
    have h4 := (hkx x hx).1
    by_cases h6 : k x < 0
    · simp [h6, h4.mp h6]
    · have : ¬ 0 < production n w x := fun h => h6 (h4.mpr h)
      simp [h6, this]
  · intro f hf
    rcases List.mem_append.mp hf with hf | hf
    · exact hmem _ f hf
    · exact hmem _ f hf
  · intro e
    have h4 : get? (stateElements ((sideNames n k false).map fun x => termFormula (k x) x)) e =
        get? (stateElements ((sideNames n k true).map fun x => termFormula (k x) x)) e := h3 e
    rw [← val_stateElements, ← val_stateElements, val, val, h4]

/-- Atoms are balanced over all columns. -/
theorem atoms_production {rxns : List Str} {n : Network} (hn : parseNetwork rxns = .ok n) (hclean : ∀ st ∈ n.rxns, CleanEnds st) (w : List K) (e : Char) :
    (n.siteCols.map fun x => production n w x * (nameCount e x : K)).sum + (n.reaproCols.map fun x => production n w x * (nameCount e x : K)).sum = 0 := by
  unfold production
  rw [production_swap, production_swap]
  have : ∀ (rs : List (List (List Formula))) (w : List K), (∀ st ∈ rs, st ∈ n.rxns) →
      (List.zipWith (fun states r => r * (n.siteCols.map fun x => (produced x states : K) * (nameCount e x : K)).sum) rs w).sum +
      (List.zipWith (fun states r => r * (n.reaproCols.map fun x => (produced x states : K) * (nameCount e x : K)).sum) rs w).sum = 0 := by
    intro rs
    induction rs with
    | nil => simp
    | cons st rs ih =>
      intro w h
      cases w with
      | nil => simp
      | cons r w =>
        simp only [List.zipWith_cons_cons, List.sum_cons]
        have h1 := element_balance (K := K) hn (h st (by simp)) (hclean st (h st (by simp))) e
        have h2 := ih w fun st hst => h st (by simp [hst])
        linear_combination r * h1 + h2
  exact this n.rxns w fun _ h => h

/-- C79 (partial): if the weighted reactions leave every adsorbate and site unchanged, change every gas and liquid, by
whole multiples of the change of one of them, then an equation is returned. Formulas must hold an element and no zero
counts. What the equation is, is the subject of `C79_returned`. Missing: amounts that are not whole multiples, and gases
that are formed and consumed again (see `C79_ratios_refuted` and `C79_recycled_refuted`). -/
theorem C79_complete_partial (round1 : K → K) (basis : List (List K)) (rxns : List Str) (n : Network) (hn : parseNetwork rxns = .ok n)
    (hclean : ∀ st ∈ n.rxns, CleanEnds st) (w : List K) (hw : totalWeights round1 basis = .ok w) (hlen : w.length = rxns.length)
    (hnull : ∀ x ∈ n.siteCols, production n w x = 0)
    (d : Str) (hd : d ∈ n.reaproCols) (hratio : ∀ x ∈ n.reaproCols, ∃ z : Int, z ≠ 0 ∧ production n w x = z * production n w d)
    (hd0 : production n w d ≠ 0)
    (hel : ∀ x ∈ n.reaproCols, ∃ f, chemFormula x = .ok f ∧ keys (speciesElements f.species) ≠ [] ∧
      ∀ e ∈ keys (speciesElements f.species), 0 < val (speciesElements f.species) e) :
    ∃ s, totalEquation round1 basis n = .ok s := by
  have hpos : 0 < |production n w d| := abs_pos.mpr hd0
  have hdle : ∀ x ∈ n.reaproCols, |production n w d| ≤ |production n w x| := by
    intro x hx
    obtain ⟨z, hz, e⟩ := hratio x hx
    rw [e, abs_mul]
    have : (1 : K) ≤ |(z : K)| := by
      have h1 : (1 : Int) ≤ |z| := Int.one_le_abs hz
      have h2 : ((1 : Int) : K) ≤ ((|z| : Int) : K) := Int.cast_le.mpr h1
      rw [Int.cast_abs, Int.cast_one] at h2
      exact h2
    nlinarith [abs_nonneg (production n w d)]
  have hc : totalCoefs n w = .ok (n.reaproCols.map fun x => pyInt (-production n w x / |production n w d|)) := by
    rw [totalCoefs_eq hn hlen]
    cases hmin : minOf (n.reaproCols.map fun x => |production n w x|) with
    | error e =>
      cases hl : n.reaproCols with
      | nil => rw [hl] at hd; cases hd
      | cons a l => rw [hl] at hmin; cases hmin
    | ok m =>
      obtain ⟨h1, h2⟩ := minOf_ok hmin
      obtain ⟨y, hy, hym⟩ := List.mem_map.mp h1
      have hmd : m = |production n w d| := le_antisymm (h2 _ (List.mem_map_of_mem hd)) (hym ▸ hdle y hy)
      subst hmd
      change (if |production n w d| = 0 then _ else _ : Py (List Int)) = _
      rw [if_neg hpos.ne']
  refine ⟨_, (totalEquation_ok hw hc _).mpr ⟨rfl, (total_check hn _).mpr ?_⟩⟩
  set k : Str → Int := fun x => pyInt (-production n w x / |production n w d|) with hk
  -- the coefficients are exact
  have hexact : ∀ x ∈ n.reaproCols, (k x : K) * |production n w d| = -production n w x ∧ 1 ≤ (k x).natAbs := by
    intro x hx
    have hint : ∃ z : Int, -production n w x / |production n w d| = z := by
      obtain ⟨z, -, e⟩ := hratio x hx
      rcases abs_choice (production n w d) with h | h
      · exact ⟨-z, by rw [h, e]; field_simp; push_cast; ring⟩
      · exact ⟨z, by rw [h, e]; field_simp⟩
    obtain ⟨z, hz⟩ := hint
    have hkz : k x = z := by
      rw [hk]
      dsimp only
      rw [hz, pyInt]
      split <;> simp
    refine ⟨?_, (pyInt_ratio (t := -production n w x) hpos (by rw [abs_neg]; exact hdle x hx)).2.2⟩
    rw [hkz, ← hz]
    field_simp
  -- atoms of both sides
  have hsum : ∀ e, (n.reaproCols.map fun x => k x * nameCount e x).sum = 0 := by
    intro e
    have h1 := atoms_production hn hclean w e
    have h2 : (n.siteCols.map fun x => production n w x * (nameCount e x : K)).sum = 0 := by
      rw [show (n.siteCols.map fun x => production n w x * (nameCount e x : K)) = n.siteCols.map fun _ => (0 : K) from
        List.map_congr_left fun x hx => by rw [hnull x hx, zero_mul]]
      simp
    rw [h2, zero_add] at h1
    have h3 : (n.reaproCols.map fun x => production n w x * (nameCount e x : K)) =
        n.reaproCols.map fun x => -|production n w d| * ((k x * nameCount e x : Int) : K) := by
      apply List.map_congr_left
      intro x hx
      have := (hexact x hx).1
      push_cast
      linear_combination (nameCount e x : K) * this
    rw [h3, List.sum_map_mul_left] at h1
    have h4 : (n.reaproCols.map fun x => ((k x * nameCount e x : Int) : K)).sum = 0 := by
      rcases mul_eq_zero.mp h1 with h | h
      · exact absurd (neg_eq_zero.mp h) hpos.ne'
      · exact h
    have h5 : (((n.reaproCols.map fun x => k x * nameCount e x).sum : Int) : K) = 0 := by
      rw [← h4]
      have : ∀ l : List Str, (((l.map fun x => k x * nameCount e x).sum : Int) : K) = (l.map fun x => ((k x * nameCount e x : Int) : K)).sum := by
        intro l
        induction l with
        | nil => simp
        | cons a l ih => simp only [List.map_cons, List.sum_cons, Int.cast_add, ih]
      exact this _
    exact_mod_cast h5
  have hval : ∀ neg e, ((val (stateElements ((sideNames n k neg).map fun x => termFormula (k x) x)) e : Nat) : Int) =
      ((sideNames n k neg).map fun x => ((k x).natAbs : Int) * nameCount e x).sum := by
    intro neg e
    rw [val_stateElements, sum_int_cast, List.map_map, List.map_map]
    congr 1
    apply List.map_congr_left
    intro x hx
    have ht := term_formula hn (List.mem_of_mem_filter hx) (k x)
    simp only [Function.comp_apply]
    rw [Nat.cast_mul, ht.2.1, ht.2.2.2.2.1 e]
  have hbal : ∀ e, val (stateElements ((sideNames n k false).map fun x => termFormula (k x) x)) e =
      val (stateElements ((sideNames n k true).map fun x => termFormula (k x) x)) e := by
    intro e
    have hsplit : ∀ l : List Str, (l.map fun x => k x * nameCount e x).sum =
        ((l.filter fun x => decide (k x < 0) = false).map fun x => ((k x).natAbs : Int) * nameCount e x).sum -
        ((l.filter fun x => decide (k x < 0) = true).map fun x => ((k x).natAbs : Int) * nameCount e x).sum := by
      intro l
      induction l with
      | nil => simp
      | cons a l ih =>
        rw [List.map_cons, List.sum_cons, ih, List.filter_cons, List.filter_cons]
        by_cases h : k a < 0
        · have ha : ((k a).natAbs : Int) = -k a := by omega
          simp only [h, decide_true, if_true, List.map_cons, List.sum_cons, ha, Bool.true_eq_false, decide_false, Bool.false_eq_true, if_false]
          ring
        · have ha : ((k a).natAbs : Int) = k a := by omega
          simp only [h, decide_false, decide_true, if_true, List.map_cons, List.sum_cons, ha, Bool.false_eq_true, if_false]
          ring
    have h1 := hsum e
    rw [hsplit] at h1
    have h2 := hval false e
    have h3 := hval true e
    unfold sideNames at h2 h3
    unfold sideNames
    omega
  -- every listed element occurs
  have hkeys : ∀ neg, ∀ e ∈ keys (stateElements ((sideNames n k neg).map fun x => termFormula (k x) x)),
      0 < val (stateElements ((sideNames n k neg).map fun x => termFormula (k x) x)) e := by
    intro neg e he
    rw [mem_keys_stateElements] at he
    obtain ⟨f, hf, hfe⟩ := he
    rw [val_stateElements]
    obtain ⟨x, hx, rfl⟩ := List.mem_map.mp hf
    have hx' : x ∈ n.reaproCols := List.mem_of_mem_filter hx
    obtain ⟨f', hf', -, hp⟩ := hel x hx'
    have ht := term_formula hn hx' (k x)
    have hsp := ht.2.2.2.2.2 f' hf'
    have h1 : 0 < (termFormula (k x) x).stoich * val (speciesElements (termFormula (k x) x).species) e := by
      apply Nat.mul_pos
      · rw [ht.2.1]; exact (hexact x hx').2
      · rw [hsp] at hfe ⊢; exact hp e hfe
    exact lt_of_lt_of_le h1 (List.single_le_sum (fun _ _ => Nat.zero_le _) _ (List.mem_map_of_mem (f := fun f : Formula => f.stoich * val (speciesElements f.species) e) hf))
  have hget : ∀ e, get? (stateElements ((sideNames n k false).map fun x => termFormula (k x) x)) e =
      get? (stateElements ((sideNames n k true).map fun x => termFormula (k x) x)) e :=
    (eqB_iff (nodup_stateElements _) (nodup_stateElements _)).mp
      ((eqB_iff_val (nodup_stateElements _) (nodup_stateElements _) (hkeys false) (hkeys true)).mpr hbal)
  -- a side that is not empty has an atom
  have hside : ∀ neg, sideNames n k neg ≠ [] → ∃ e, 0 < val (stateElements ((sideNames n k neg).map fun x => termFormula (k x) x)) e := by
    intro neg h0
    obtain ⟨x, hx⟩ := List.exists_mem_of_ne_nil _ h0
    have hx' : x ∈ n.reaproCols := List.mem_of_mem_filter hx
    obtain ⟨f', hf', hne, -⟩ := hel x hx'
    obtain ⟨e, he⟩ := List.exists_mem_of_ne_nil _ hne
    refine ⟨e, hkeys neg e ?_⟩
    rw [mem_keys_stateElements]
    refine ⟨_, List.mem_map_of_mem hx, ?_⟩
    rw [(term_formula hn hx' (k x)).2.2.2.2.2 f' hf']
    exact he
  have hnil : ∀ neg, sideNames n k neg = [] → ∀ e, val (stateElements ((sideNames n k neg).map fun x => termFormula (k x) x)) e = 0 := by
    intro neg h0 e
    rw [h0, val_stateElements]
    simp
  have hor : sideNames n k false ≠ [] ∨ sideNames n k true ≠ [] := by
    cases hneg : decide (k d < 0)
    · exact .inl (List.ne_nil_of_mem (List.mem_filter.mpr ⟨hd, by simpa using hneg⟩))
    · exact .inr (List.ne_nil_of_mem (List.mem_filter.mpr ⟨hd, by simpa using hneg⟩))
  have hboth : sideNames n k false ≠ [] ∧ sideNames n k true ≠ [] := by
    constructor
    · intro h0
      obtain ⟨e, he⟩ := hside true (hor.resolve_left (not_not.mpr h0))
      rw [← hbal, hnil false h0] at he
      exact absurd he (lt_irrefl _)
    · intro h0
      obtain ⟨e, he⟩ := hside false (hor.resolve_right (not_not.mpr h0))
      rw [hbal, hnil true h0] at he
      exact absurd he (lt_irrefl _)
  exact ⟨hboth.1, hboth.2, hget⟩

/-- C79 (refuted for recycled gases): if the weighted reactions leave a gas or liquid unchanged, as one that is formed
and consumed again, the amount zero is divided by and no equation is returned. -/
theorem C79_recycled_refuted (round1 : K → K) (basis : List (List K)) (rxns : List Str) (n : Network) (hn : parseNetwork rxns = .ok n)
    (w : List K) (hw : totalWeights round1 basis = .ok w) (hlen : w.length = rxns.length) (x : Str) (hx : x ∈ n.reaproCols)
    (h0 : production n w x = 0) : totalEquation round1 basis n = .error .ZeroDivisionError := by
  unfold totalEquation
  rw [hw]
  change (totalCoefs n w >>= fun c => _) = _
  rw [totalCoefs_eq hn hlen]
  cases hmin : minOf (n.reaproCols.map fun x => |production n w x|) with
  | error e =>
    cases hl : n.reaproCols with
    | nil => rw [hl] at hx; cases hx
    | cons a l => rw [hl] at hmin; cases hmin
  | ok m =>
    obtain ⟨h1, h2⟩ := minOf_ok hmin
    obtain ⟨y, hy, hym⟩ := List.mem_map.mp h1
    have hm : m = 0 := le_antisymm (by have := h2 _ (List.mem_map_of_mem (f := fun x => |production n w x|) hx); rw [h0, abs_zero] at this; exact this) (hym ▸ abs_nonneg _)
    subst hm
    change ((if (0 : K) = 0 then _ else _ : Py (List Int)) >>= fun c => _) = _
    rw [if_pos rfl]
    rfl

end main

/-! ### Concrete cases -/

/-- CO oxidation. -/
def exTotal : List Str := [str! "CO_g + *_s -> CO_s", str! "O2_g + 2*_s -> 2O_s", str! "CO_s + O_s <-> CO-O_s + *_s -> CO2_g + 2*_s"]

/-- The null vector up to a factor. -/
def exBasis : List (List ℚ) := [[-2/3, -1/3, -2/3]]

example : ∃ n, parseNetwork exTotal = .ok n ∧ totalEquation id exBasis n = .ok (str! "2CO_g + O2_g -> 2CO2_g") :=
  ⟨_, rfl, by decide +kernel⟩

/-- The parsed network. -/
def exTotalNet : Network := match parseNetwork exTotal with
  | .ok n => n
  | .error _ => ⟨[], [], [], [], [], []⟩

/-- The hypotheses of `C79_complete_partial` hold, and it applies. -/
example : ∃ s, totalEquation id exBasis exTotalNet = .ok s := by
  refine C79_complete_partial id exBasis exTotal exTotalNet rfl ?_ [2, 1, 2] (by decide +kernel) rfl (by decide +kernel) (str! "O2_g") (by decide +kernel)
    ?_ (by decide +kernel) ?_
  · have key : ∀ st ∈ exTotalNet.rxns, ∀ fs ∈ st.head?.toList ++ st.getLast?.toList, ∀ f ∈ fs,
        specKind f.species f.site ≠ .ts ∧ (specKind f.species f.site = .empty → f.species = str! "*") := by decide +kernel
    intro st hst fs hfs f hf
    refine key st hst fs ?_ f hf
    rcases hfs with h | h <;> simp [h]
  · intro x hx
    refine ⟨if x = str! "O2_g" then 1 else if x = str! "CO_g" then 2 else -2, ?_⟩
    revert x
    decide +kernel
  · have hc : exTotalNet.reaproCols = [str! "CO2_g", str! "CO_g", str! "O2_g"] := by decide +kernel
    rw [hc]
    intro x hx
    simp only [List.mem_cons, List.not_mem_nil, or_false] at hx
    rcases hx with rfl | rfl | rfl <;> exact ⟨_, rfl, by decide, by decide⟩

/-- C79 (refuted for ratios that are not whole): 4 NH3 and 3 O2 are consumed, 2 N2 and 6 H2O formed. The coefficient of
O2 relative to N2 is cut to one, and the text is rejected, although the reactions conserve everything. -/
theorem C79_ratios_refuted :
    ∃ n, parseNetwork [str! "4NH3_g + 3O2_g + *_s -> N4H12O6_s", str! "N4H12O6_s -> 2N2_g + 6H2O_g + *_s"] = .ok n ∧
      (∀ x ∈ n.siteCols, production n [(1 : ℚ), 1] x = 0) ∧
      n.reaproCols.map (production n [(1 : ℚ), 1]) = [6, 2, -4, -3] ∧
      totalCoefs n [(1 : ℚ), 1] = .ok [-3, -1, 2, 1] ∧
      totalEquation id [[(1 : ℚ), 1]] n = .error .ValueError :=
  ⟨_, rfl, by decide +kernel, by decide +kernel, by decide +kernel, by decide +kernel⟩

/-- A gas formed and consumed again. -/
example : ∃ n, parseNetwork [str! "CO_g + *_s -> CO_s", str! "CO_s -> CO_g + *_s"] = .ok n ∧ str! "CO_g" ∈ n.reaproCols ∧
    production n [(1 : ℚ), 1] (str! "CO_g") = 0 ∧ totalWeights id [[(1 : ℚ), 1]] = .ok [1, 1] ∧
    totalEquation id [[(1 : ℚ), 1]] n = .error .ZeroDivisionError :=
  ⟨_, rfl, by decide, by decide +kernel, by decide +kernel, by decide +kernel⟩

/-- C79 (refuted for directions): the sign of a reaction's multiplicity is dropped, so a reaction that has to run in
reverse is counted forwards: the null vector of the sites is (1, -1), the text built from (1, 1) has no right side. -/
theorem C79_direction_refuted :
    ∃ n, parseNetwork [str! "CO_g + *_s -> CO_s", str! "OC_g + *_s -> CO_s"] = .ok n ∧
      (∀ x ∈ n.siteCols, production n [(1 : ℚ), -1] x = 0) ∧
      n.reaproCols.map (production n [(1 : ℚ), -1]) = [-1, 1] ∧
      totalWeights id [[(1 : ℚ), -1]] = .ok [1, 1] ∧
      totalEquation id [[(1 : ℚ), -1]] n = .error .ChemFormulaError :=
  ⟨_, rfl, by decide +kernel, by decide +kernel, by decide +kernel, by decide +kernel⟩

section weights
variable {K : Type} [Field K] [LinearOrder K] [IsStrictOrderedRing K]

/-- C79. The weights are the entries of the first vector of the basis relative to the smallest; so the reaction of the
smallest entry has the weight one, rounded. -/
theorem C79_weights (round1 : K → K) (basis : List (List K)) (w : List K) (h : totalWeights round1 basis = .ok w) :
    ∃ v rest m, basis = v :: rest ∧ 0 < m ∧ (∃ y ∈ v, |y| = m) ∧ (∀ y ∈ v, m ≤ |y|) ∧ w = v.map (fun y => round1 (|y| / m)) ∧
      round1 1 ∈ w := by
  unfold totalWeights at h
  cases basis with
  | nil => cases h
  | cons v rest =>
    dsimp only at h
    split at h
    · cases h
    obtain ⟨m, hm, h⟩ := bind_ok.mp h
    by_cases h0 : m = 0
    · rw [if_pos h0] at h; cases h
    rw [if_neg h0] at h
    cases h
    obtain ⟨h1, h2⟩ := minOf_ok hm
    obtain ⟨y, hy, hym⟩ := List.mem_map.mp h1
    have hpos : 0 < m := lt_of_le_of_ne (by rw [← hym]; exact abs_nonneg y) (Ne.symm h0)
    refine ⟨v, rest, m, rfl, hpos, ⟨y, hy, hym⟩, fun z hz => h2 _ (List.mem_map_of_mem hz), by rw [List.map_map]; rfl, ?_⟩
    refine List.mem_map.mpr ⟨|y|, List.mem_map_of_mem hy, ?_⟩
    rw [hym, div_self h0]

/-- C79. The length and the sign of the vectors of the basis do not matter: `numpy` may return any multiples. -/
theorem C79_scale (round1 : K → K) (basis : List (List K)) (c : K) (hc : c ≠ 0) :
    totalWeights round1 (basis.map (·.map (c * ·))) = totalWeights round1 basis := by
  have hmin : ∀ (l : List K) (a : K), l.foldl (fun p q => min p (|c| * q)) (|c| * a) = |c| * l.foldl min a := by
    intro l
    induction l with
    | nil => intro a; rfl
    | cons b l ih =>
      intro a
      rw [List.foldl_cons, List.foldl_cons, ← mul_min_of_nonneg _ _ (abs_nonneg c), ih]
  have hmo : ∀ l : List K, minOf (l.map (|c| * ·)) = (minOf l).map (|c| * ·) := by
    intro l
    cases l with
    | nil => rfl
    | cons a l =>
      rw [List.map_cons]
      unfold minOf
      dsimp only [Except.map]
      rw [List.foldl_map, hmin]
  unfold totalWeights
  cases basis with
  | nil => rfl
  | cons v rest =>
    rw [List.map_cons]
    dsimp only
    have hany : (((v.map (c * ·)) :: rest.map (·.map (c * ·))).any fun v => v.any fun y => decide (y ≠ 0))
        = ((v :: rest).any fun v => v.any fun y => decide (y ≠ 0)) := by
      rw [← List.map_cons (f := fun l : List K => l.map (c * ·)), List.any_map]
      congr 1
      funext l
      simp only [Function.comp, List.any_map]
      congr 1
      funext y
      simp [hc]
    rw [hany]
    split
    · rfl
    have e1 : (v.map (c * ·)).map (fun y => |y|) = (v.map fun y => |y|).map (|c| * ·) := by
      simp [List.map_map, Function.comp_def, abs_mul]
    rw [e1, hmo]
    cases minOf (v.map fun y => |y|) with
    | error e => rfl
    | ok m =>
      show (if |c| * m = 0 then _ else _) = (if m = 0 then _ else _)
      have hc' : |c| ≠ 0 := abs_ne_zero.mpr hc
      by_cases h0 : m = 0
      · rw [if_pos h0, if_pos (by rw [h0, mul_zero])]; rfl
      · rw [if_neg h0, if_neg (mul_ne_zero hc' h0)]
        show Except.ok _ = Except.ok _
        congr 1
        rw [List.map_map]
        apply List.map_congr_left
        intro y _
        dsimp only [Function.comp]
        rw [mul_div_mul_left _ _ hc']

end weights

/-- The vector of CO oxidation as `numpy.linalg.svd` could return it. -/
example : totalWeights id [[(-2 / 3 : ℚ), -1 / 3, -2 / 3]] = .ok [2, 1, 2] ∧ totalWeights id [[(2 : ℚ), 1, 2]] = .ok [2, 1, 2] := by
  decide +kernel

end Verif
