import Verif.Lemmas.Rounding
import Verif.Props.MeanField
import Verif.Props.Rates
import Mathlib.Data.Int.Log
import Mathlib.Algebra.Order.Round
import Mathlib.Algebra.Order.Archimedean.Real.Basic
import Mathlib.Algebra.Order.Field.Power
/-
C130: the mean field solver with numbers of finite precision.
-/
namespace Verif
open Dict

/-! ## Rounding to a number of binary digits -/

/-- The nearest number with `p` binary digits and any exponent; of two nearest ones the greater. -/
noncomputable def roundTo (p : Nat) (x : ℝ) : ℝ :=
  (round (x * 2 ^ ((p : ℤ) - 1 - Int.log 2 |x|)) : ℝ) * 2 ^ (Int.log 2 |x| - ((p : ℤ) - 1))

/-- Arithmetic with `p` binary digits. -/
noncomputable def Arith.digits (p : Nat) : Arith where
  add x y := roundTo p (x + y)
  sub x y := roundTo p (x - y)
  mul x y := roundTo p (x * y)
  div x y := roundTo p (x / y)
  pow x n := roundTo p (x ^ n)
  exp x := roundTo p (Real.exp x)

theorem two_zpow_pos (k : ℤ) : (0 : ℝ) < 2 ^ k := zpow_pos (by norm_num) k

theorem roundTo_within (p : Nat) (x : ℝ) : Within (1 + 1 / 2 ^ p) (roundTo p x) x := by
  unfold Within roundTo
  rw [add_sub_cancel_left]
  rcases eq_or_ne x 0 with rfl | hx
  · simp
  set e := Int.log 2 |x| with he
  have h1 : (2 : ℝ) ^ e ≤ |x| := by
    have := Int.zpow_log_le_self (R := ℝ) (b := 2) (by norm_num) (abs_pos.mpr hx)
    simpa using this
  have hs := two_zpow_pos (e - ((p : ℤ) - 1))
  have hx' : x = x * 2 ^ ((p : ℤ) - 1 - e) * 2 ^ (e - ((p : ℤ) - 1)) := by
    rw [mul_assoc, ← zpow_add₀ (by norm_num)]
    simp
  have hr := abs_sub_round (x * 2 ^ ((p : ℤ) - 1 - e))
  have h2 : (round (x * 2 ^ ((p : ℤ) - 1 - e)) : ℝ) * 2 ^ (e - ((p : ℤ) - 1)) - x
      = (round (x * 2 ^ ((p : ℤ) - 1 - e)) - x * 2 ^ ((p : ℤ) - 1 - e)) * 2 ^ (e - ((p : ℤ) - 1)) := by
    conv_lhs => rw [hx']
    rw [show x * 2 ^ ((p : ℤ) - 1 - e) * 2 ^ (e - ((p : ℤ) - 1)) * 2 ^ ((p : ℤ) - 1 - e) = x * 2 ^ ((p : ℤ) - 1 - e) by
      rw [← hx']]
    ring
  rw [h2, abs_mul, abs_of_pos hs, abs_sub_comm]
  have h3 : (2 : ℝ) ^ (e - ((p : ℤ) - 1)) = 2 ^ e * (2 * (1 / 2 ^ p)) := by
    rw [show e - ((p : ℤ) - 1) = e + 1 - p by ring, zpow_sub₀ (by norm_num), zpow_add₀ (by norm_num)]
    simp
    ring
  have h4 : (0 : ℝ) < 1 / 2 ^ p := by positivity
  calc |x * 2 ^ ((p : ℤ) - 1 - e) - round (x * 2 ^ ((p : ℤ) - 1 - e))| * 2 ^ (e - ((p : ℤ) - 1))
      ≤ 1 / 2 * 2 ^ (e - ((p : ℤ) - 1)) := mul_le_mul_of_nonneg_right hr hs.le
    _ = 2 ^ e * (1 / 2 ^ p) := by rw [h3]; ring
    _ ≤ |x| * (1 / 2 ^ p) := mul_le_mul_of_nonneg_right h1 h4.le
    _ = 1 / 2 ^ p * |x| := by ring

/-- Rounding to binary digits meets what is asked of the arithmetic. -/
theorem digits_rounds (p : Nat) : (Arith.digits p).Rounds (1 / 2 ^ p) where
  nonneg := by positivity
  add _ _ := roundTo_within p _
  sub _ _ := roundTo_within p _
  mul _ _ := roundTo_within p _
  div _ _ := roundTo_within p _
  pow _ _ := roundTo_within p _
  exp _ := roundTo_within p _

theorem exact_rounds : Arith.exact.Rounds 0 where
  nonneg := le_refl 0
  add _ _ := near_refl (by simp) _
  sub _ _ := near_refl (by simp) _
  mul _ _ := near_refl (by simp) _
  div _ _ := near_refl (by simp) _
  pow _ _ := near_refl (by simp) _
  exp _ := near_refl (by simp) _

/-! ## Without rounding -/

theorem foldl_add_sum (xs : List ℝ) (a : ℝ) : xs.foldl (· + ·) a = a + xs.sum := by
  induction xs generalizing a with
  | nil => simp
  | cons x xs ih => rw [List.foldl_cons, ih, List.sum_cons]; ring

theorem foldl_signed_sum (xs : List (Bool × ℝ)) (a : ℝ) :
    xs.foldl (fun s y => if y.1 then s + y.2 else s - y.2) a = a + (xs.map fun y => if y.1 then y.2 else -y.2).sum := by
  induction xs generalizing a with
  | nil => simp
  | cons x xs ih =>
    rw [List.foldl_cons, ih, List.map_cons, List.sum_cons]
    split <;> ring

theorem rdKTST_exact (Ga T : ℝ) : rdKTST Arith.exact Ga T = kTST Ga T := by
  unfold rdKTST kTST Arith.exact
  have : kBeV * T = 0 ↔ T = 0 := by simp [kBeV_pos.ne']
  simp only [this]

theorem rdFreeSites_exact (totals : Dict Str ℝ) (cls : Dict Str (List Str)) (d : Dict Str ℝ) (ss : List Str) :
    rdFreeSites Arith.exact totals cls d ss = freeSites totals cls d ss := by
  induction ss generalizing d with
  | nil => rfl
  | cons s ss ih =>
    unfold rdFreeSites freeSites
    have : ∀ cs : List ℝ, cs.foldl Arith.exact.add 0 = cs.sum := fun cs => by
      have := foldl_add_sum cs 0
      rw [zero_add] at this
      exact this
    simp only [this, ih]
    rfl

theorem rdTerm_exact (env : Env ℝ) (t : Term) : rdTerm Arith.exact env t = evalTerm env t := by
  have hf : rdFactor Arith.exact env = evalFactor env := by
    funext f
    unfold rdFactor evalFactor
    have : ∀ x : ℝ, (if f.pow = 1 then x else Arith.exact.pow x f.pow) = x ^ f.pow := by
      intro x
      by_cases h : f.pow = 1
      · rw [if_pos h, h, pow_one]
      · rw [if_neg h]; rfl
    simp only [this]
    cases f.var <;> rfl
  have hm : ∀ (xs : List ℝ) (k : ℝ), xs.foldl Arith.exact.mul (if t.coef = 1 then k else Arith.exact.mul t.coef k) = (t.coef : ℝ) * k * xs.prod := by
    intro xs k
    refine (foldl_mul_prod xs _).trans ?_
    by_cases h : t.coef = 1
    · rw [if_pos h, h]; simp
    · rw [if_neg h]; rfl
  unfold rdTerm evalTerm
  rw [hf]
  simp only [hm]
  cases (if t.fwd then env.kf else env.kr)[t.idx]? <;> rfl

theorem mapM_map_ok {α β γ : Type} (f : α → Py β) (g : α → β → γ) (l : List α) :
    (l.mapM fun t => do let x ← f t; pure (g t x) : Py (List γ))
      = (l.mapM fun t => do let x ← f t; pure (t, x) : Py (List (α × β))) >>= fun m => pure (m.map fun y => g y.1 y.2) := by
  induction l with
  | nil => rfl
  | cons t l ih =>
    rw [List.mapM_cons, List.mapM_cons, ih]
    generalize (l.mapM fun t => do let x ← f t; pure (t, x) : Py (List (α × β))) = z
    cases f t with
    | error e => rfl
    | ok x => cases z <;> rfl

theorem rdPoly_exact (env : Env ℝ) (q : Poly) : rdPoly Arith.exact env q = evalPoly env q := by
  unfold rdPoly evalPoly
  simp only [rdTerm_exact]
  rw [mapM_map_ok (fun t : Bool × Term => evalTerm env t.2) (fun t x => (t.1, x)) q,
    mapM_map_ok (fun t : Bool × Term => evalTerm env t.2) (fun t x => if t.1 then x else -x) q]
  cases (q.mapM fun t => do let x ← evalTerm env t.2; pure (t, x) : Py (List ((Bool × Term) × ℝ))) with
  | error e => rfl
  | ok m =>
    cases m with
    | nil => rfl
    | cons y m =>
      have h := foldl_signed_sum (m.map fun y => (y.1.1, y.2)) (if y.1.1 then y.2 else -y.2)
      simp only [bind, Except.bind, pure, Except.pure, List.map_cons, List.sum_cons]
      refine congrArg Except.ok (h.trans ?_)
      rw [List.map_map]
      rfl

/-- With exact operations the calculation is the one of the other properties. -/
theorem C130_exact (o : MFOwner ℝ) (k : List ℝ × List ℝ) (cvgs : List ℝ) (ro : RateOwner) (rel : RelDict ℝ) :
    rdCvgDict Arith.exact o cvgs = cvgTuple2Dict o cvgs ∧
    rdRates Arith.exact o k cvgs = getRates o k cvgs ∧
    rdNetRates Arith.exact o k cvgs = getNetRates o k cvgs ∧
    rdSteady Arith.exact o k cvgs = steadyStateFunction o k cvgs ∧
    rdConstants Arith.exact ro rel = rateConstants ro .TST rel := by
  have h1 : rdCvgDict Arith.exact o cvgs = cvgTuple2Dict o cvgs := by
    unfold rdCvgDict cvgTuple2Dict
    simp only [rdFreeSites_exact]
  have h2 : rdEnv Arith.exact o k cvgs = mkEnv o k cvgs := by
    unfold rdEnv mkEnv
    rw [h1]
  have h3 : rdRates Arith.exact o k cvgs = getRates o k cvgs := by
    unfold rdRates getRates
    rw [h2]
    simp only [rdTerm_exact]
  refine ⟨h1, h3, ?_, ?_, ?_⟩
  · unfold rdNetRates getNetRates
    rw [h3]
    rfl
  · unfold rdSteady steadyStateFunction
    rw [h2]
    have : rdPoly Arith.exact = evalPoly := by
      funext env q
      exact rdPoly_exact env q
    rw [this]
  · unfold rdConstants rateConstants
    have : rdRatesTST Arith.exact ro rel = ratesTST ro rel false := by
      funext rxn
      unfold rdRatesTST ratesTST
      simp only [rdKTST_exact]
      rfl
    rw [this]

/-! ## Rate constants -/

/-- The rate constant of a barrier, with the exact one: the operations add four roundings, and the exponential enlarges
the relative error of its argument by the size of the argument. -/
theorem C130_constant (A : Arith) (u : ℝ) (h : A.Rounds u) (hu : u < 1) (Ga T : ℝ) :
    RelPy (Within ((1 + u) ^ 4 * Real.exp (2 * u / (1 - u) * |Ga / (kBeV * T)|))) (rdKTST A Ga T) (kTST Ga T) := by
  have h0 := h.nonneg
  have hk := kBeV_pos
  have hh := heV_pos
  have hm := h.mul kBeV T
  have hz : A.mul kBeV T = 0 ↔ T = 0 := by
    rw [near_zero (by linarith) hm]
    simp [hk.ne']
  unfold rdKTST kTST
  by_cases hT : T = 0
  · rw [if_pos (hz.mpr hT), if_pos hT]
    rfl
  rw [if_neg (fun e => hT (hz.mp e)), if_neg hT]
  set b := A.mul kBeV T with hb
  set a := kBeV * T with ha
  have ha0 : a ≠ 0 := mul_ne_zero hk.ne' hT
  have hb0 : b ≠ 0 := fun e => hT (hz.mp e)
  have hpre : Within ((1 + u) ^ 2) (A.div b heV) (a / heV) := by
    have h1 : Within (1 + u) (b / heV) (a / heV) := by
      have := near_mul (x' := heV⁻¹) (y' := heV⁻¹) (d := 1) (by linarith) hm (near_refl (le_refl 1) _)
      rw [mul_one] at this
      simpa [div_eq_mul_inv] using this
    have := near_trans (by linarith) (h.div b heV) h1
    rwa [← sq] at this
  have hinv : Within (1 + u / (1 - u)) (-Ga / b) (-Ga / a) := by
    unfold Within at hm ⊢
    rw [add_sub_cancel_left] at hm ⊢
    have e1 : -Ga / b - -Ga / a = -Ga / a * ((a - b) / b) := by field_simp; ring
    rw [e1, abs_mul, mul_comm]
    refine mul_le_mul_of_nonneg_right ?_ (abs_nonneg _)
    rw [abs_div, div_le_div_iff₀ (abs_pos.mpr hb0) (by linarith), abs_sub_comm]
    have e2 : |a| ≤ |b - a| + |b| := by
      have := abs_sub_abs_le_abs_sub a b
      rw [abs_sub_comm a b] at this
      linarith
    nlinarith [abs_nonneg (b - a), abs_nonneg b]
  have hx := near_trans (by linarith) (h.div (-Ga) b) hinv
  have hg : (1 + u) * (1 + u / (1 - u)) - 1 = 2 * u / (1 - u) := by
    have : (1 : ℝ) - u ≠ 0 := by linarith
    field_simp
    ring
  unfold Within at hx
  rw [hg] at hx
  set x := -Ga / a with hxd
  set y := A.div (-Ga) b with hyd
  have hxa : |x| = |Ga / a| := by rw [hxd, neg_div, abs_neg]
  rw [hxa] at hx
  set D := 2 * u / (1 - u) * |Ga / a| with hD
  have hD0 : 0 ≤ D := le_trans (abs_nonneg _) hx
  have hexp : Within (Real.exp D) (Real.exp y) (Real.exp x) := by
    unfold Within
    have e1 : Real.exp y - Real.exp x = (Real.exp (y - x) - 1) * Real.exp x := by
      rw [sub_mul, ← Real.exp_add]
      simp
    rw [e1, abs_mul]
    refine mul_le_mul_of_nonneg_right ?_ (abs_nonneg _)
    obtain ⟨l1, l2⟩ := abs_le.mp hx
    rw [abs_le]
    constructor
    · have e2 : Real.exp (-D) ≤ Real.exp (y - x) := Real.exp_le_exp.mpr l1
      have e3 : Real.exp (-D) * Real.exp D = 1 := by rw [← Real.exp_add]; simp
      have e4 := Real.exp_pos (-D)
      nlinarith [sq_nonneg (Real.exp D - 1), Real.exp_pos D, Real.one_le_exp hD0]
    · have : Real.exp (y - x) ≤ Real.exp D := Real.exp_le_exp.mpr l2
      linarith
  have hexp' := near_trans (by linarith) (h.exp y) hexp
  have := near_opMul h (one_le_pow₀ (by linarith)) hpre hexp'
  exact near_mono this (le_of_eq (by ring))

/-- All rate constants, for barriers of bounded size. -/
theorem C130_constants (A : Arith) (u : ℝ) (h : A.Rounds u) (hu : u < 1) (o : RateOwner) (rel : RelDict ℝ) (X : ℝ)
    (hX : ∀ rxn v, relOf o.rxns rel rxn = .ok v → |v.gaf / (kBeV * o.T)| ≤ X ∧ |v.gar / (kBeV * o.T)| ≤ X) :
    RelPy (fun k k' => List.Forall₂ (Within ((1 + u) ^ 4 * Real.exp (2 * u / (1 - u) * X))) k.1 k'.1 ∧
        List.Forall₂ (Within ((1 + u) ^ 4 * Real.exp (2 * u / (1 - u) * X))) k.2 k'.2)
      (rdConstants A o rel) (rateConstants o .TST rel) := by
  have h0 := h.nonneg
  have hmono : ∀ x, x ≤ X → (1 + u) ^ 4 * Real.exp (2 * u / (1 - u) * x) ≤ (1 + u) ^ 4 * Real.exp (2 * u / (1 - u) * X) := by
    intro x hx
    refine mul_le_mul_of_nonneg_left (Real.exp_le_exp.mpr (mul_le_mul_of_nonneg_left hx ?_)) (by positivity)
    exact div_nonneg (by linarith) (by linarith)
  unfold rdConstants rateConstants
  split
  · rfl
  · refine relPy_bind (R := List.Forall₂ fun p q : ℝ × ℝ => Within ((1 + u) ^ 4 * Real.exp (2 * u / (1 - u) * X)) p.1 q.1 ∧ Within ((1 + u) ^ 4 * Real.exp (2 * u / (1 - u) * X)) p.2 q.2) (relPy_mapM_same ?_) ?_
    · intro rxn _
      unfold rdRatesTST ratesTST
      cases hv : relOf o.rxns rel rxn with
      | error e => rfl
      | ok v =>
        obtain ⟨b1, b2⟩ := hX rxn v hv
        refine relPy_bind (R := fun a b => a = v ∧ b = v) ⟨rfl, rfl⟩ ?_
        rintro w w' ⟨rfl, rfl⟩
        refine relPy_bind (relPy_mono (C130_constant A u h hu w'.gaf o.T) fun a b hab => near_mono hab (hmono _ b1)) fun a b hab => ?_
        refine relPy_bind (relPy_mono (C130_constant A u h hu w'.gar o.T) fun a b hab => near_mono hab (hmono _ b2)) fun c d hcd => ?_
        exact ⟨hab, hcd⟩
    · intro l m hlm
      refine ⟨?_, ?_⟩
      · rw [List.forall₂_map_left_iff, List.forall₂_map_right_iff]
        exact hlm.imp fun _ _ hx => hx.1
      · rw [List.forall₂_map_left_iff, List.forall₂_map_right_iff]
        exact hlm.imp fun _ _ hx => hx.2

/-! ## Coverages -/

/-- The same model with other totals of the sites. -/
structure SameButTotals (o o' : MFOwner ℝ) : Prop where
  rxns : o'.rxns = o.rxns
  net : o'.net = o.net
  pressures : o'.pressures = o.pressures
  concs : o'.concs = o.concs

/-- The computed coverages are the exact ones of a model whose totals differ from the given ones by rounding errors of the
totals and the coverages on the site. -/
theorem C130_sites (A : Arith) (u : ℝ) (h : A.Rounds u) (o : MFOwner ℝ) (total P C : Str → ℝ) (hr : Ready o total P C) (v : Str → ℝ) :
    ∃ o' total', SameButTotals o o' ∧ Ready o' total' P C ∧
      rdCvgDict A o (o.net.ads.map v) = cvgTuple2Dict o' (o.net.ads.map v) ∧
      ∀ s, |total' s - total s| ≤ ((1 + u) ^ ((o.net.ads.filter (fun a => OnSite a s)).length + 1) - 1)
        * (|total s| + ((o.net.ads.filter (fun a => OnSite a s)).map fun a => |v a|).sum) :=
  ⟨rdOwner A o total v, rdTotal A o.net total v, ⟨rfl, rfl, rfl, rfl⟩, rdOwner_ready hr v, rdCvgDict_eq hr v,
    rdTotal_near h o.net total v⟩

theorem sameBut_env {A : Arith} {o o' : MFOwner ℝ} (hs : SameButTotals o o') {cvgs : List ℝ} (hd : rdCvgDict A o cvgs = cvgTuple2Dict o' cvgs)
    {c : ℝ} {k k' : List ℝ × List ℝ} (h1 : List.Forall₂ (Within c) k'.1 k.1) (h2 : List.Forall₂ (Within c) k'.2 k.2) :
    RelPy (EnvWithin c) (rdEnv A o k' cvgs) (mkEnv o' k cvgs) := by
  have hg : getData o' = getData o := by
    unfold getData
    rw [hs.net, hs.pressures, hs.concs]
  unfold rdEnv mkEnv
  rw [hd, hg]
  refine relPy_bind (R := Eq) (relPy_eq (fun _ => rfl) _) ?_
  rintro θ _ rfl
  refine relPy_bind (R := Eq) (relPy_eq (fun _ => rfl) _) ?_
  rintro d _ rfl
  exact ⟨h1, h2, rfl, rfl, rfl⟩

/-! ## Rates -/

/-- The computed rates are the exact rates of these coverages up to a relative error, and the same calls fail. -/
theorem C130_rates (A : Arith) (u : ℝ) (h : A.Rounds u) (o o' : MFOwner ℝ) (hs : SameButTotals o o') (cvgs : List ℝ)
    (hd : rdCvgDict A o cvgs = cvgTuple2Dict o' cvgs) (c : ℝ) (hc : 1 ≤ c) (k k' : List ℝ × List ℝ)
    (h1 : List.Forall₂ (Within c) k'.1 k.1) (h2 : List.Forall₂ (Within c) k'.2 k.2)
    (L : Nat) (hL : ∀ states ∈ o.net.rxns, ∀ fs ∈ states, fs.length ≤ L) :
    RelPy (fun r r' => List.Forall₂ (Within (c * (1 + u) ^ (2 * L + 1))) r.1 r'.1 ∧ List.Forall₂ (Within (c * (1 + u) ^ (2 * L + 1))) r.2 r'.2)
      (rdRates A o k' cvgs) (getRates o' k cvgs) := by
  have ht : rateTerms o' = rateTerms o := by
    funext rxn
    unfold rateTerms
    rw [hs.rxns, hs.net]
  unfold rdRates getRates
  refine relPy_bind (sameBut_env hs hd h1 h2) fun e e' he => ?_
  rw [hs.rxns, ht]
  cases hts : o.rxns.mapM (rateTerms o) with
  | error x => rfl
  | ok ts =>
    have hlen : ∀ t ∈ ts, t.1.factors.length ≤ L ∧ t.2.factors.length ≤ L := by
      intro t htm
      obtain ⟨i, hi, rfl⟩ := List.mem_iff_getElem.mp htm
      obtain ⟨l1, l2⟩ := mapM_ok_inv hts
      have := rateTerms_len hL (l2 i (by omega) hi)
      exact ⟨this.1, this.2.1⟩
    refine relPy_bind (R := fun a b => a = ts ∧ b = ts) ⟨rfl, rfl⟩ ?_
    rintro _ _ ⟨rfl, rfl⟩
    refine relPy_bind (relPy_mapM_same fun t htm => rdTerm_near h hc he t.1 (hlen t htm).1) fun a b hab => ?_
    refine relPy_bind (relPy_mapM_same fun t htm => rdTerm_near h hc he t.2 (hlen t htm).2) fun a' b' hab' => ?_
    exact ⟨hab, hab'⟩

/-- A reaction runs in the computed rates exactly if it runs in the exact ones. -/
theorem C130_signs (A : Arith) (u : ℝ) (h : A.Rounds u) (o o' : MFOwner ℝ) (hs : SameButTotals o o') (cvgs : List ℝ)
    (hd : rdCvgDict A o cvgs = cvgTuple2Dict o' cvgs) (c : ℝ) (hc : 1 ≤ c) (k k' : List ℝ × List ℝ)
    (h1 : List.Forall₂ (Within c) k'.1 k.1) (h2 : List.Forall₂ (Within c) k'.2 k.2)
    (L : Nat) (hL : ∀ states ∈ o.net.rxns, ∀ fs ∈ states, fs.length ≤ L) (hsmall : c * (1 + u) ^ (2 * L + 1) < 2) :
    RelPy (fun r r' => List.Forall₂ (fun x y : ℝ => (0 < x ↔ 0 < y) ∧ (x = 0 ↔ y = 0)) r.1 r'.1 ∧
        List.Forall₂ (fun x y : ℝ => (0 < x ↔ 0 < y) ∧ (x = 0 ↔ y = 0)) r.2 r'.2)
      (rdRates A o k' cvgs) (getRates o' k cvgs) :=
  relPy_mono (C130_rates A u h o o' hs cvgs hd c hc k k' h1 h2 L hL) fun _ _ hr =>
    ⟨hr.1.imp fun _ _ hx => ⟨near_pos hsmall hx, near_zero hsmall hx⟩, hr.2.imp fun _ _ hx => ⟨near_pos hsmall hx, near_zero hsmall hx⟩⟩

theorem forall₂_right {α β : Type} {R : α → β → Prop} {l : List α} {m : List β} (h : List.Forall₂ R l m) {i : Nat} {b : β} (hb : m[i]? = some b) :
    ∃ a, l[i]? = some a ∧ R a b := by
  rcases getElem?_forall₂ h i with ⟨-, h2⟩ | ⟨a, b', h1, h2, h3⟩
  · rw [h2] at hb; cases hb
  · rw [h2] at hb
    cases hb
    exact ⟨a, h1, h3⟩

/-- The computed net rates are off by a part of the forward and the reverse rate. -/
theorem C130_net (A : Arith) (u : ℝ) (h : A.Rounds u) (o o' : MFOwner ℝ) (hs : SameButTotals o o') (cvgs : List ℝ)
    (hd : rdCvgDict A o cvgs = cvgTuple2Dict o' cvgs) (c : ℝ) (hc : 1 ≤ c) (k k' : List ℝ × List ℝ)
    (h1 : List.Forall₂ (Within c) k'.1 k.1) (h2 : List.Forall₂ (Within c) k'.2 k.2)
    (L : Nat) (hL : ∀ states ∈ o.net.rxns, ∀ fs ∈ states, fs.length ≤ L) (rf rr : List ℝ) (hr : getRates o' k cvgs = .ok (rf, rr)) :
    ∃ ns, rdNetRates A o k' cvgs = .ok ns ∧ ns.length = min rf.length rr.length ∧
      ∀ (j : Nat) (f r : ℝ), rf[j]? = some f → rr[j]? = some r →
        ∃ x, ns[j]? = some x ∧ |x - (f - r)| ≤ (c * (1 + u) ^ (2 * L + 2) - 1) * (|f| + |r|) := by
  have hrel := C130_rates A u h o o' hs cvgs hd c hc k k' h1 h2 L hL
  rw [hr] at hrel
  obtain ⟨⟨af, ar⟩, ha, hf, hr'⟩ := relPy_ok_right hrel
  refine ⟨List.zipWith A.sub af ar, ?_, ?_, ?_⟩
  · unfold rdNetRates
    rw [ha]
    rfl
  · rw [List.length_zipWith, hf.length_eq, hr'.length_eq]
  · intro j f r hjf hjr
    obtain ⟨x, hx, wx⟩ := forall₂_right hf hjf
    obtain ⟨y, hy, wy⟩ := forall₂_right hr' hjr
    refine ⟨A.sub x y, ?_, ?_⟩
    · rw [List.getElem?_zipWith, hx, hy]
    · have key := near_sum h (c := c * (1 + u) ^ (2 * L + 1)) (one_le_mul_of_one_le_of_one_le hc (h.one_le _)) [(false, y)] [(false, r)]
        (List.Forall₂.cons ⟨rfl, wy⟩ List.Forall₂.nil) 0 x f |f| (by rw [pow_zero, mul_one]; exact wx) (le_refl _)
      simp only [List.foldl_cons, List.foldl_nil, Bool.false_eq_true, if_false, List.map_cons, List.map_nil, List.sum_cons, List.sum_nil, add_zero,
        ← sub_eq_add_neg, List.length_cons, List.length_nil, zero_add] at key
      rwa [mul_assoc, ← pow_add] at key

/-! ## Steady state equations -/

/-- The computed right hand sides are off by a part of all gains and losses of the adsorbate. -/
theorem C130_equations (A : Arith) (u : ℝ) (h : A.Rounds u) (o o' : MFOwner ℝ) (hp : parseNetwork o.rxns = .ok o.net) (hs : SameButTotals o o')
    (cvgs : List ℝ) (hd : rdCvgDict A o cvgs = cvgTuple2Dict o' cvgs) (c : ℝ) (hc : 1 ≤ c) (k k' : List ℝ × List ℝ)
    (h1 : List.Forall₂ (Within c) k'.1 k.1) (h2 : List.Forall₂ (Within c) k'.2 k.2)
    (L : Nat) (hL : ∀ states ∈ o.net.rxns, ∀ fs ∈ states, fs.length ≤ L) (rf rr : List ℝ) (hr : getRates o' k cvgs = .ok (rf, rr)) :
    ∃ F : Str → ℝ × ℝ, rdSteady A o k' cvgs = .ok (o.net.ads.map fun a => (F a).1) ∧
      steadyStateFunction o' k cvgs = .ok (o.net.ads.map fun a => (F a).2) ∧
      ∀ a ∈ o.net.ads, |(F a).1 - (F a).2| ≤ (c * (1 + u) ^ (2 * L + 2 * o.rxns.length) - 1) * turnoverOf a o.rxns rf rr := by
  have ht : rateTerms o' = rateTerms o := by
    funext rxn
    unfold rateTerms
    rw [hs.rxns, hs.net]
  have hdt : elementaryDtheta o' = elementaryDtheta o := by
    funext a rxn
    unfold elementaryDtheta
    rw [hs.net, ht]
  have hadt : adsorbateDtheta o' = adsorbateDtheta o := by
    funext a
    unfold adsorbateDtheta
    rw [hs.rxns, hdt]
  unfold getRates at hr
  rw [bind_ok] at hr
  obtain ⟨e', he', hr⟩ := hr
  rw [hs.rxns, ht, bind_ok] at hr
  obtain ⟨ts, hts, hr⟩ := hr
  rw [bind_ok] at hr
  obtain ⟨rf', hrf, hr⟩ := hr
  rw [bind_ok] at hr
  obtain ⟨rr', hrr, hr⟩ := hr
  rw [pure_ok] at hr
  injection hr with e1 e2
  subst e1 e2
  have henv := sameBut_env hs hd h1 h2
  rw [he'] at henv
  obtain ⟨e, he, hee⟩ := relPy_ok_right henv
  have hpar : ∀ rxn ∈ o.rxns, ∃ states, eqnFormulas rxn = .ok states := by
    intro rxn hx
    obtain ⟨i, hi, rfl⟩ := List.mem_iff_getElem.mp hx
    obtain ⟨st, -, -, e1, -⟩ := states_ok hp hi
    exact ⟨st, e1⟩
  have key : ∀ a ∈ o.net.ads, ∃ q g f, adsorbateDtheta o a = .ok q ∧ rdPoly A e q = .ok g ∧ evalPoly e' q = .ok f ∧
      |g - f| ≤ (c * (1 + u) ^ (2 * L + 2 * o.rxns.length) - 1) * turnoverOf a o.rxns rf' rr' := by
    intro a ha
    obtain ⟨es, hes, m, hm, hfac, hsum, hlen⟩ := poly_ok (env := e') hL ha o.rxns hpar ts rf' rr' hts hrf hrr
    obtain ⟨g, hg, hb⟩ := rdPoly_near h hc hee hfac hm hlen
    refine ⟨_, g, _, ?_, hg, evalPoly_of hm, ?_⟩
    · unfold adsorbateDtheta
      rw [hes]
      rfl
    · rw [← hsum]
      exact hb
  classical
  choose! Q G F hQ hG hF hb using key
  have hqs : o.net.ads.mapM (adsorbateDtheta o) = .ok (o.net.ads.map Q) := mapM_ok_map fun a ha => hQ a ha
  refine ⟨fun a => (G a, F a), ?_, ?_, fun a ha => hb a ha⟩
  · unfold rdSteady
    rw [he, hqs]
    simp only [bind, Except.bind]
    rw [List.mapM_map]
    exact mapM_ok_map fun a ha => hG a ha
  · unfold steadyStateFunction
    rw [he', hs.net, hadt, hqs]
    simp only [bind, Except.bind]
    rw [List.mapM_map]
    exact mapM_ok_map fun a ha => hF a ha

/-- Coverages accepted by the solver satisfy the exact equations up to the tolerance and the rounding errors. -/
theorem C130_residual (A : Arith) (u : ℝ) (h : A.Rounds u) (o o' : MFOwner ℝ) (hp : parseNetwork o.rxns = .ok o.net) (hs : SameButTotals o o')
    (cvgs : List ℝ) (hd : rdCvgDict A o cvgs = cvgTuple2Dict o' cvgs) (c : ℝ) (hc : 1 ≤ c) (k k' : List ℝ × List ℝ)
    (h1 : List.Forall₂ (Within c) k'.1 k.1) (h2 : List.Forall₂ (Within c) k'.2 k.2)
    (L : Nat) (hL : ∀ states ∈ o.net.rxns, ∀ fs ∈ states, fs.length ≤ L) (rf rr : List ℝ) (hr : getRates o' k cvgs = .ok (rf, rr))
    (gs : List ℝ) (tol : ℝ) (hg : rdSteady A o k' cvgs = .ok gs) (htol : ∀ g ∈ gs, |g| ≤ tol) :
    ∃ F : Str → ℝ, steadyStateFunction o' k cvgs = .ok (o.net.ads.map F) ∧
      ∀ a ∈ o.net.ads, |F a| ≤ tol + (c * (1 + u) ^ (2 * L + 2 * o.rxns.length) - 1) * turnoverOf a o.rxns rf rr := by
  obtain ⟨F, e1, e2, e3⟩ := C130_equations A u h o o' hp hs cvgs hd c hc k k' h1 h2 L hL rf rr hr
  rw [e1] at hg
  have hgs := Except.ok.inj hg
  refine ⟨fun a => (F a).2, e2, fun a ha => ?_⟩
  have b1 := htol (F a).1 (by rw [← hgs]; exact List.mem_map.mpr ⟨a, ha, rfl⟩)
  have b2 := e3 a ha
  have := abs_sub_abs_le_abs_sub (F a).2 (F a).1
  rw [abs_sub_comm] at this
  linarith

/-! ## Net rates have no relative accuracy -/

theorem roundTo_eq {p : Nat} {x : ℝ} {n a : ℤ} (h1 : (2 : ℝ) ^ a ≤ x) (h2 : x < (2 : ℝ) ^ (a + 1))
    (h3 : |x * 2 ^ ((p : ℤ) - 1 - a) - n| < 1 / 2) : roundTo p x = n * 2 ^ (a - ((p : ℤ) - 1)) := by
  have hx : 0 < x := lt_of_lt_of_le (two_zpow_pos a) h1
  have hl : Int.log 2 |x| = a := by
    rw [abs_of_pos hx]
    apply le_antisymm
    · have := (Int.lt_zpow_iff_log_lt (b := 2) (by norm_num) (x := a + 1) hx).mp (by simpa using h2)
      omega
    · exact (Int.zpow_le_iff_le_log (b := 2) (by norm_num) hx).mp (by simpa using h1)
  unfold roundTo
  rw [hl]
  congr 2
  rw [round_eq, Int.floor_eq_iff]
  obtain ⟨e1, e2⟩ := abs_lt.mp h3
  constructor <;> linarith

theorem roundTo_zero (p : Nat) : roundTo p 0 = 0 := by
  unfold roundTo
  simp

/-- Adsorption of one gas. -/
def oneStep : List Str := [str! "CO_g + *_s -> CO_s"]

/-- The model of this reaction at a given pressure. -/
noncomputable def oneStepModel (P : ℝ) : MFOwner ℝ := ⟨oneStep, netOf oneStep, [(str! "*_s", 1)], [(str! "CO_g", P)], []⟩

theorem oneStep_parse : parseNetwork oneStep = .ok (netOf oneStep) := by decide

theorem oneStep_ads : (netOf oneStep).ads = [str! "CO_s"] := by decide

theorem oneStep_ready (P : ℝ) : Ready (oneStepModel P) (fun _ => 1) (fun _ => P) (fun _ => 0) where
  parse := oneStep_parse
  totals := by
    have : (netOf oneStep).sites = [str! "*_s"] := by decide
    intro s hs
    rw [show (oneStepModel P).net.sites = _ from this, List.mem_singleton] at hs
    subst hs
    rfl
  pressures := by
    have : (netOf oneStep).gas = [str! "CO_g"] := by decide
    intro s hs
    rw [show (oneStepModel P).net.gas = _ from this, List.mem_singleton] at hs
    subst hs
    rfl
  concs := by
    have : (netOf oneStep).liq = [] := by decide
    intro s hs
    rw [show (oneStepModel P).net.liq = _ from this] at hs
    cases hs

theorem oneStep_cvg (A : Arith) (P θ : ℝ) : rdCvgDict A (oneStepModel P) [θ] = .ok [(str! "CO_s", θ), (str! "*_s", A.sub 1 (A.add 0 θ))] := by
  have h1 : classifyAds (netOf oneStep) = .ok [(str! "*_s", [str! "CO_s"])] := by decide
  have h2 : (netOf oneStep).sites = [str! "*_s"] := by decide
  unfold rdCvgDict
  rw [show (oneStepModel P).net = netOf oneStep from rfl, h1, oneStep_ads, h2]
  rfl

theorem oneStep_net (A : Arith) (P kf kr θ : ℝ) : rdNetRates A (oneStepModel P) ([kf], [kr]) [θ]
    = .ok [A.sub (A.mul (A.mul kf P) (A.sub 1 (A.add 0 θ))) (A.mul kr θ)] := by
  have h3 : (netOf oneStep).gas = [str! "CO_g"] := by decide
  have h4 : (netOf oneStep).liq = [] := by decide
  have h5 : oneStep.mapM (rateTerms (oneStepModel P)) = .ok [(⟨1, true, 0, [⟨.p, str! "CO_g", 1⟩, ⟨.theta, str! "*_s", 1⟩]⟩, ⟨1, false, 0, [⟨.theta, str! "CO_s", 1⟩]⟩)] := by
    have e : rateTerms (oneStepModel P) = rateTerms (⟨oneStep, netOf oneStep, [], [], []⟩ : MFOwner ℚ) := rfl
    rw [e]
    decide +kernel
  have hg : getData (oneStepModel P) = .ok ([(str! "CO_g", P)], []) := by
    unfold getData
    rw [show (oneStepModel P).net = netOf oneStep from rfl, h3, h4]
    rfl
  unfold rdNetRates rdRates rdEnv
  rw [oneStep_cvg, hg, show (oneStepModel P).rxns = oneStep from rfl, h5]
  rfl

theorem roundTo_half {p : Nat} {t : ℝ} (ht : t = 2 ^ p) : roundTo (p + 1) (1 / 2) = 1 / 2 := by
  have ht0 : t ≠ 0 := by rw [ht]; positivity
  have e := roundTo_eq (p := p + 1) (x := 1 / 2) (n := 2 ^ p) (a := -1) (by norm_num) (by norm_num) (by
    push_cast
    rw [show (p : ℤ) + 1 - 1 - -1 = p + 1 by ring, zpow_add₀ (by norm_num), zpow_natCast, ← ht,
      show (1 : ℝ) / 2 * (t * 2 ^ (1 : ℤ)) - t = 0 by norm_num; ring]
    norm_num)
  rw [e]
  push_cast
  rw [show (-1 : ℤ) - (p + 1 - 1) = -1 - p by ring, zpow_sub₀ (by norm_num), zpow_natCast, ← ht]
  field_simp

theorem roundTo_square {p : Nat} {t : ℝ} (ht : t = 2 ^ p) (h4 : 4 ≤ t) : roundTo (p + 1) ((t + 1) * (t + 1)) = (t + 2) * t := by
  have ht0 : t ≠ 0 := by linarith
  have h2p : (2 : ℝ) ^ (2 * (p : ℤ)) = t ^ 2 := by
    rw [mul_comm, zpow_mul, zpow_natCast, ← ht]
    norm_cast
  have e := roundTo_eq (p := p + 1) (x := (t + 1) * (t + 1)) (n := 2 ^ p + 2) (a := 2 * p) (by rw [h2p]; nlinarith)
    (by rw [zpow_add₀ (by norm_num), h2p]; norm_num; nlinarith) (by
    push_cast
    rw [show (p : ℤ) + 1 - 1 - 2 * p = p - 2 * p by ring, zpow_sub₀ (by norm_num), h2p, zpow_natCast, ← ht]
    rw [show (t + 1) * (t + 1) * (t / t ^ 2) - (t + 2) = 1 / t by field_simp; ring, abs_of_pos (by positivity)]
    rw [div_lt_div_iff₀ (by positivity) (by norm_num)]
    linarith)
  rw [e]
  push_cast
  rw [show 2 * (p : ℤ) - (p + 1 - 1) = 2 * p - p by ring, zpow_sub₀ (by norm_num), h2p, zpow_natCast, ← ht]
  field_simp

theorem roundTo_halfSquare {p : Nat} {t : ℝ} (ht : t = 2 ^ p) (h4 : 4 ≤ t) : roundTo (p + 1) ((t + 2) * t * (1 / 2)) = (t + 2) * t * (1 / 2) := by
  have ht0 : t ≠ 0 := by linarith
  have h2p : (2 : ℝ) ^ (2 * (p : ℤ)) = t ^ 2 := by
    rw [mul_comm, zpow_mul, zpow_natCast, ← ht]
    norm_cast
  have e := roundTo_eq (p := p + 1) (x := (t + 2) * t * (1 / 2)) (n := 2 ^ p + 2) (a := 2 * p - 1) (by rw [zpow_sub₀ (by norm_num), h2p]; norm_num; nlinarith)
    (by rw [sub_add_cancel, h2p]; nlinarith) (by
    push_cast
    rw [show (p : ℤ) + 1 - 1 - (2 * p - 1) = p + 1 - 2 * p by ring, zpow_sub₀ (by norm_num), zpow_add₀ (by norm_num), h2p, zpow_natCast, ← ht]
    rw [show (t + 2) * t * (1 / 2) * (t * 2 ^ (1 : ℤ) / t ^ 2) - (t + 2) = 0 by norm_num; field_simp; ring]
    norm_num)
  rw [e]
  push_cast
  rw [show 2 * (p : ℤ) - 1 - (p + 1 - 1) = 2 * p - 1 - p by ring, zpow_sub₀ (by norm_num), zpow_sub₀ (by norm_num), h2p, zpow_natCast, ← ht]
  norm_num
  field_simp

/-- For every number of digits there are data for which the computed net rate is zero although the exact one is not:
net rates, and with them turnover frequencies, have no relative accuracy. -/
theorem C130_net_refuted (p : Nat) (hp : 2 ≤ p) :
    ∃ (o : MFOwner ℝ) (total P C : Str → ℝ) (k : List ℝ × List ℝ) (v : Str → ℝ), Ready o total P C ∧
      rdNetRates (Arith.digits (p + 1)) o k (o.net.ads.map v) = .ok [0] ∧ getNetRates o k (o.net.ads.map v) = .ok [1 / 2] := by
  obtain ⟨t, ht⟩ : ∃ t : ℝ, t = 2 ^ p := ⟨_, rfl⟩
  have h4 : 4 ≤ t := by
    rw [ht]
    calc (4 : ℝ) = 2 ^ 2 := by norm_num
      _ ≤ 2 ^ p := pow_le_pow_right₀ (by norm_num) hp
  refine ⟨oneStepModel (t + 1), _, _, _, ([t + 1], [(t + 2) * t]), fun _ => 1 / 2, oneStep_ready (t + 1), ?_, ?_⟩
  · rw [show (oneStepModel (t + 1)).net.ads = _ from oneStep_ads, List.map_cons, List.map_nil, oneStep_net]
    have e1 : (Arith.digits (p + 1)).add 0 (1 / 2) = 1 / 2 := by
      show roundTo (p + 1) (0 + 1 / 2) = 1 / 2
      rw [zero_add, roundTo_half ht]
    have e2 : (Arith.digits (p + 1)).sub 1 (1 / 2) = 1 / 2 := by
      show roundTo (p + 1) (1 - 1 / 2) = 1 / 2
      rw [show (1 : ℝ) - 1 / 2 = 1 / 2 by norm_num, roundTo_half ht]
    have e3 : (Arith.digits (p + 1)).mul (t + 1) (t + 1) = (t + 2) * t := roundTo_square ht h4
    have e4 : (Arith.digits (p + 1)).mul ((t + 2) * t) (1 / 2) = (t + 2) * t * (1 / 2) := roundTo_halfSquare ht h4
    have e5 : ∀ x, (Arith.digits (p + 1)).sub x x = 0 := fun x => by
      show roundTo (p + 1) (x - x) = 0
      rw [sub_self, roundTo_zero]
    rw [e1, e2, e3, e4, e5]
  · rw [← (C130_exact (oneStepModel (t + 1)) ([t + 1], [(t + 2) * t]) _ ⟨[], 0, [], 0, 0, false⟩ ⟨none, none, none⟩).2.2.1,
      show (oneStepModel (t + 1)).net.ads = _ from oneStep_ads, List.map_cons, List.map_nil, oneStep_net]
    simp only [Arith.exact]
    congr 2
    ring

/-! ## From energies to rates, and the example -/

/-- The rates computed from energies: they are the exact rates, up to a relative error given by the precision, the number of
factors and the barriers, of a model whose totals differ by rounding errors. -/
theorem C130_energies (A : Arith) (u : ℝ) (h : A.Rounds u) (hu : u < 1) (o : MFOwner ℝ) (total P C : Str → ℝ) (hr : Ready o total P C)
    (v : Str → ℝ) (ro : RateOwner) (rel : RelDict ℝ) (X : ℝ) (hX0 : 0 ≤ X)
    (hX : ∀ rxn v, relOf ro.rxns rel rxn = .ok v → |v.gaf / (kBeV * ro.T)| ≤ X ∧ |v.gar / (kBeV * ro.T)| ≤ X)
    (L : Nat) (hL : ∀ states ∈ o.net.rxns, ∀ fs ∈ states, fs.length ≤ L) (k' : List ℝ × List ℝ) (hk' : rdConstants A ro rel = .ok k') :
    ∃ o' total' k, SameButTotals o o' ∧ Ready o' total' P C ∧ rateConstants ro .TST rel = .ok k ∧
      (∀ s, |total' s - total s| ≤ ((1 + u) ^ ((o.net.ads.filter (fun a => OnSite a s)).length + 1) - 1)
        * (|total s| + ((o.net.ads.filter (fun a => OnSite a s)).map fun a => |v a|).sum)) ∧
      RelPy (fun r r' => List.Forall₂ (Within ((1 + u) ^ (2 * L + 5) * Real.exp (2 * u / (1 - u) * X))) r.1 r'.1 ∧
          List.Forall₂ (Within ((1 + u) ^ (2 * L + 5) * Real.exp (2 * u / (1 - u) * X))) r.2 r'.2)
        (rdRates A o k' (o.net.ads.map v)) (getRates o' k (o.net.ads.map v)) := by
  have h0 := h.nonneg
  have hrel := C130_constants A u h hu ro rel X hX
  rw [hk'] at hrel
  obtain ⟨k, hk, h1, h2⟩ := relPy_ok_left hrel
  obtain ⟨o', total', hs, hr', hd, hb⟩ := C130_sites A u h o total P C hr v
  refine ⟨o', total', k, hs, hr', hk, hb, ?_⟩
  have hc : 1 ≤ (1 + u) ^ 4 * Real.exp (2 * u / (1 - u) * X) :=
    one_le_mul_of_one_le_of_one_le (h.one_le 4) (Real.one_le_exp (mul_nonneg (div_nonneg (by linarith) (by linarith)) hX0))
  have := C130_rates A u h o o' hs _ hd _ hc k k' h1 h2 L hL
  rw [show (1 + u) ^ 4 * Real.exp (2 * u / (1 - u) * X) * (1 + u) ^ (2 * L + 1) = (1 + u) ^ (2 * L + 5) * Real.exp (2 * u / (1 - u) * X) by
    rw [show 2 * L + 5 = 4 + (2 * L + 1) by ring, pow_add]
    ring] at this
  exact this

theorem oneStep_len (P : ℝ) : ∀ states ∈ (oneStepModel P).net.rxns, ∀ fs ∈ states, fs.length ≤ 2 := by
  have : ∀ states ∈ (netOf oneStep).rxns, ∀ fs ∈ states, fs.length ≤ 2 := by decide
  exact this

/-- Double precision, one reaction with the barriers 0.5 and 1 at 500 K. -/
noncomputable def oneStepRates : RateOwner := ⟨oneStep, 500, [], 1, 1, false⟩
noncomputable def oneStepEnergies : RelDict ℝ := ⟨some [1 / 2], some [1], some [-1 / 2]⟩

theorem oneStep_barriers : ∀ rxn v, relOf oneStepRates.rxns oneStepEnergies rxn = .ok v →
    |v.gaf / (kBeV * oneStepRates.T)| ≤ 24 ∧ |v.gar / (kBeV * oneStepRates.T)| ≤ 24 := by
  intro rxn v hv
  unfold relOf at hv
  split at hv
  · cases hv
  · rename_i hm
    rw [not_not] at hm
    have : rxn = str! "CO_g + *_s -> CO_s" := by
      have hm' : rxn ∈ oneStep := hm
      unfold oneStep at hm'
      simpa using hm'
    subst this
    have e : v = ⟨1 / 2, 1, -1 / 2⟩ := (Except.ok.inj hv).symm
    subst e
    have hT : oneStepRates.T = 500 := rfl
    rw [hT]
    unfold kBeV
    norm_num [abs_of_pos]

theorem oneStep_constants (A : Arith) (u : ℝ) (h : A.Rounds u) (hu : u < 1) : ∃ k, rdConstants A oneStepRates oneStepEnergies = .ok k := by
  have hrel := C130_constants A u h hu oneStepRates oneStepEnergies 24 oneStep_barriers
  have he : ∃ k, rateConstants oneStepRates .TST oneStepEnergies = .ok k := by
    unfold rateConstants ratesTST kTST
    have hT : ¬ oneStepRates.T = 0 := by
      show ¬ (500 : ℝ) = 0
      norm_num
    simp only [hT, if_false]
    exact ⟨_, rfl⟩
  obtain ⟨k, hk⟩ := he
  rw [hk] at hrel
  obtain ⟨a, ha, -⟩ := relPy_ok_right hrel
  exact ⟨a, ha⟩

/-- The hypotheses hold for double precision. -/
example : ∃ k' o' total' k, rdConstants (Arith.digits 53) oneStepRates oneStepEnergies = .ok k' ∧ SameButTotals (oneStepModel 2) o' ∧
    Ready o' total' (fun _ => 2) (fun _ => 0) ∧ rateConstants oneStepRates .TST oneStepEnergies = .ok k ∧
    RelPy (fun r r' => List.Forall₂ (Within ((1 + 1 / 2 ^ 53) ^ 9 * Real.exp (2 * (1 / 2 ^ 53) / (1 - 1 / 2 ^ 53) * 24))) r.1 r'.1 ∧
        List.Forall₂ (Within ((1 + 1 / 2 ^ 53) ^ 9 * Real.exp (2 * (1 / 2 ^ 53) / (1 - 1 / 2 ^ 53) * 24))) r.2 r'.2)
      (rdRates (Arith.digits 53) (oneStepModel 2) k' ((oneStepModel 2).net.ads.map fun _ => 1 / 2))
      (getRates o' k ((oneStepModel 2).net.ads.map fun _ => 1 / 2)) := by
  obtain ⟨k', hk'⟩ := oneStep_constants (Arith.digits 53) _ (digits_rounds 53) (by norm_num)
  obtain ⟨o', total', k, hs, hr, hk, -, hrel⟩ := C130_energies (Arith.digits 53) _ (digits_rounds 53) (by norm_num) (oneStepModel 2) _ _ _
    (oneStep_ready 2) (fun _ => 1 / 2) oneStepRates oneStepEnergies 24 (by norm_num) oneStep_barriers 2 (oneStep_len 2) k' hk'
  exact ⟨k', o', total', k, hk', hs, hr, hk, hrel⟩

/-- The hypotheses of the theorems on signs, net rates and equations. -/
example : ∃ (o' : MFOwner ℝ) (rf rr ns : List ℝ) (F : Str → ℝ × ℝ), SameButTotals (oneStepModel 2) o' ∧ getRates o' ([3], [5]) [1 / 2] = .ok (rf, rr) ∧
    rdNetRates (Arith.digits 53) (oneStepModel 2) ([3], [5]) [1 / 2] = .ok ns ∧ ns.length = min rf.length rr.length ∧
    rdSteady (Arith.digits 53) (oneStepModel 2) ([3], [5]) [1 / 2] = .ok ((oneStepModel 2).net.ads.map fun a => (F a).1) ∧
    steadyStateFunction o' ([3], [5]) [1 / 2] = .ok ((oneStepModel 2).net.ads.map fun a => (F a : ℝ × ℝ).2) := by
  have hads : (oneStepModel 2).net.ads.map (fun _ => (1 / 2 : ℝ)) = [1 / 2] := by
    rw [show (oneStepModel 2).net.ads = _ from oneStep_ads]
    rfl
  obtain ⟨o', total', hs, hr, hd, -⟩ := C130_sites (Arith.digits 53) _ (digits_rounds 53) (oneStepModel 2) _ _ _ (oneStep_ready 2) (fun _ => 1 / 2)
  rw [hads] at hd
  have hk : ∀ x : ℝ, List.Forall₂ (Within 1) [x] [x] := fun x => List.Forall₂.cons (near_refl (le_refl 1) x) List.Forall₂.nil
  have hsign := C130_signs (Arith.digits 53) _ (digits_rounds 53) (oneStepModel 2) o' hs [1 / 2] hd 1 (le_refl 1) ([3], [5]) ([3], [5]) (hk 3) (hk 5) 2 (oneStep_len 2)
    (by norm_num)
  obtain ⟨ns, hns⟩ : ∃ ns, rdRates (Arith.digits 53) (oneStepModel 2) ([3], [5]) [1 / 2] = .ok ns := by
    have := oneStep_net (Arith.digits 53) 2 3 5 (1 / 2)
    unfold rdNetRates at this
    rw [bind_ok] at this
    obtain ⟨r, hr, -⟩ := this
    exact ⟨r, hr⟩
  rw [hns] at hsign
  obtain ⟨⟨rf, rr⟩, hrr, -⟩ := relPy_ok_left hsign
  obtain ⟨ns', hn1, hn2, -⟩ := C130_net (Arith.digits 53) _ (digits_rounds 53) (oneStepModel 2) o' hs [1 / 2] hd 1 (le_refl 1) ([3], [5]) ([3], [5]) (hk 3) (hk 5) 2
    (oneStep_len 2) rf rr hrr
  obtain ⟨F, hf1, hf2, -⟩ := C130_equations (Arith.digits 53) _ (digits_rounds 53) (oneStepModel 2) o' oneStep_parse hs [1 / 2] hd 1 (le_refl 1) ([3], [5]) ([3], [5])
    (hk 3) (hk 5) 2 (oneStep_len 2) rf rr hrr
  exact ⟨o', rf, rr, ns', F, hs, hrr, hn1, hn2, hf1, hf2⟩

end Verif
