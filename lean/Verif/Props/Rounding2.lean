import Verif.Props.Rounding
/-
C130: turnover frequencies and reversibilities with numbers of finite precision, and free sites.
-/
namespace Verif
open Dict

/-! ## Turnover frequencies and reversibilities -/

theorem getRates_len {o : MFOwner ℝ} {k : List ℝ × List ℝ} {cvgs rf rr : List ℝ} (h : getRates o k cvgs = .ok (rf, rr)) :
    rf.length = o.rxns.length ∧ rr.length = o.rxns.length := by
  unfold getRates at h
  obtain ⟨env, -, h⟩ := bind_ok.mp h
  obtain ⟨ts, hts, h⟩ := bind_ok.mp h
  obtain ⟨rfs, hf, h⟩ := bind_ok.mp h
  obtain ⟨rrs, hr, h⟩ := bind_ok.mp h
  have e := Except.ok.inj h
  rw [Prod.mk.injEq] at e
  rw [← e.1, ← e.2, (mapM_ok_inv hf).1, (mapM_ok_inv hr).1]
  exact ⟨(mapM_ok_inv hts).1, (mapM_ok_inv hts).1⟩

theorem zipWith_zip3 {α : Type} (g : α → ℝ) (w : ℝ → ℝ → ℝ) (rs : List α) (rf rr : List ℝ) :
    List.zipWith (fun (y : ℝ × ℝ) (m : ℝ) => |m| * y.2) (List.zipWith (fun f r => (f - r, w f r)) rf rr) (rs.map g)
      = List.zipWith3 (fun s f r => |g s| * w f r) rs rf rr := by
  induction rs generalizing rf rr with
  | nil => simp [List.zipWith3]
  | cons s rs ih =>
    cases rf with
    | nil => simp [List.zipWith3]
    | cons f rf =>
      cases rr with
      | nil => simp [List.zipWith3]
      | cons r rr => simp [List.zipWith3, ih]

theorem zipWith_prod (rs : List (List (List Formula))) (x : Str) (rf rr : List ℝ) :
    List.zipWith (fun (y : ℝ × ℝ) (m : ℝ) => m * y.1) (List.zipWith (fun f r => (f - r, |f| + |r|)) rf rr) (rs.map fun st => (produced x st : ℝ))
      = List.zipWith (fun states r => (produced x states : ℝ) * r) rs (List.zipWith (· - ·) rf rr) := by
  induction rs generalizing rf rr with
  | nil => simp
  | cons s rs ih =>
    cases rf with
    | nil => simp
    | cons f rf =>
      cases rr with
      | nil => simp
      | cons r rr => simp [ih]

/-- Computed turnover frequencies are off by a part of all production and consumption of the gas. -/
theorem C130_tof (A : Arith) (u : ℝ) (h : A.Rounds u) (o o' : MFOwner ℝ) (hp : parseNetwork o.rxns = .ok o.net) (hs : SameButTotals o o')
    (cvgs : List ℝ) (hd : rdCvgDict A o cvgs = cvgTuple2Dict o' cvgs) (c : ℝ) (hc : 1 ≤ c) (k k' : List ℝ × List ℝ)
    (h1 : List.Forall₂ (Within c) k'.1 k.1) (h2 : List.Forall₂ (Within c) k'.2 k.2)
    (L : Nat) (hL : ∀ states ∈ o.net.rxns, ∀ fs ∈ states, fs.length ≤ L) (rf rr : List ℝ) (hr : getRates o' k cvgs = .ok (rf, rr)) :
    ∃ F : Str → ℝ × ℝ, rdTof A o k' cvgs = .ok ((o.net.gas ++ o.net.liq).map fun x => (F x).1) ∧
      getTof o' k cvgs = .ok ((o.net.gas ++ o.net.liq).map fun x => (F x).2) ∧
      ∀ x ∈ o.net.gas ++ o.net.liq,
        |(F x).1 - (F x).2| ≤ (c * (1 + u) ^ (2 * L + 2 + o.rxns.length) - 1) * gasTurnover x o.net.rxns rf rr := by
  obtain ⟨ns, hns, hlen, hnear⟩ := C130_net A u h o o' hs cvgs hd c hc k k' h1 h2 L hL rf rr hr
  obtain ⟨l1, l2⟩ := getRates_len hr
  rw [hs.rxns] at l1 l2
  have lr := length_rxns hp
  have hm := stoich_rows hp
  refine ⟨fun x => (rdDot A ns (o.net.rxns.map fun st => (produced x st : ℝ)),
    (List.zipWith (fun states r => (produced x states : ℝ) * r) o.net.rxns (List.zipWith (· - ·) rf rr)).sum), ?_, ?_, ?_⟩
  · unfold rdTof
    rw [hns, hm]
    refine congrArg Except.ok ?_
    apply List.ext_getElem
    · simp [Network.reaproCols]
    · intro i g1 g2
      have hi : i < o.net.reaproCols.length := by simpa using g1
      simp only [List.getElem_map, List.getElem_range, List.map_map]
      congr 1
      apply List.map_congr_left
      intro st _
      simp only [Function.comp_apply]
      rw [List.getD_eq_getElem?_getD, List.getElem?_map, List.getElem?_eq_getElem hi]
      simp [Network.reaproCols]
  · unfold getTof getNetRates
    rw [hr, hs.net, hm]
    refine congrArg Except.ok ?_
    have := rowTimes_eq (K := ℝ) o.net.reaproCols o.net.rxns (List.zipWith (· - ·) rf rr) (by simp [l1, l2, lr])
    rw [show o.net.gas ++ o.net.liq = o.net.reaproCols from rfl, ← this]
    congr 1
    rw [List.map_map]
    apply List.map_congr_left
    intro st _
    simp [Function.comp_def]
  · intro x _
    dsimp only
    have := rdDot_near h (c := c * (1 + u) ^ (2 * L + 2)) (one_le_mul_of_one_le_of_one_le hc (h.one_le _)) ns (o.net.rxns.map fun st => (produced x st : ℝ))
      (List.zipWith (fun f r => (f - r, |f| + |r|)) rf rr) o.rxns.length (by omega) (by
        rw [List.forall₂_iff_get]
        refine ⟨by simp [hlen], ?_⟩
        intro i g1 g2
        have i1 : i < rf.length := by omega
        have i2 : i < rr.length := by omega
        obtain ⟨y, hy, hb⟩ := hnear i rf[i] rr[i] (List.getElem?_eq_getElem i1) (List.getElem?_eq_getElem i2)
        rw [List.getElem?_eq_getElem g1] at hy
        simp only [List.get_eq_getElem, List.getElem_zipWith]
        rw [Option.some.inj hy]
        exact ⟨hb, abs_sub _ _⟩)
    rw [zipWith_prod, zipWith_zip3 (fun st => (produced x st : ℝ)) (fun f r => |f| + |r|), mul_assoc, ← pow_add] at this
    exact this

/-- Computed reversibilities are accurate relatively to their size, however small the net rates are. -/
theorem C130_reversibilities (A : Arith) (u : ℝ) (h : A.Rounds u) (toFloat : ℝ → ℝ) (w : ℝ) (hw0 : 0 ≤ w) (hw : ∀ x, Within (1 + w) (toFloat x) x)
    (c : ℝ) (hc : 1 ≤ c) (hc2 : c < 2) (rf rr rf' rr' : List ℝ) (h1 : List.Forall₂ (Within c) rf' rf) (h2 : List.Forall₂ (Within c) rr' rr) :
    RelPy (List.Forall₂ (Within ((1 + w) * ((1 + u) * (c / (2 - c)))))) (rdReversibilities A toFloat rf' rr') (reversibilities rf rr) := by
  have hz : ∀ {rf rf' : List ℝ}, List.Forall₂ (Within c) rf' rf → ∀ {rr rr' : List ℝ}, List.Forall₂ (Within c) rr' rr →
      List.Forall₂ (fun x y : ℝ × ℝ => Within c x.1 y.1 ∧ Within c x.2 y.2) (rf'.zip rr') (rf.zip rr) := by
    intro rf rf' h1
    induction h1 with
    | nil => intro rr rr' _; simp
    | cons ha _ ih =>
      intro rr rr' h2
      cases h2 with
      | nil => simp
      | cons hb h2 =>
        rw [List.zip_cons_cons, List.zip_cons_cons]
        exact List.Forall₂.cons ⟨ha, hb⟩ (ih h2)
  unfold rdReversibilities reversibilities
  rw [h1.length_eq, h2.length_eq]
  by_cases hl : rf.length = rr.length
  · rw [if_neg (by simpa using hl), if_neg (by simpa using hl)]
    refine relPy_mapM (l := rf'.zip rr') (l' := rf.zip rr) ?_
    refine (hz h1 h2).imp ?_
    rintro ⟨a, b⟩ ⟨a', b'⟩ ⟨g1, g2⟩
    dsimp only at g1 g2 ⊢
    by_cases ha : a' = 0
    · rw [if_pos ha, if_pos ((near_zero hc2 g1).mpr ha)]
      exact rfl
    · rw [if_neg ha, if_neg (fun e => ha ((near_zero hc2 g1).mp e))]
      exact near_trans (by linarith) (hw _) (near_trans (by linarith [h.nonneg]) (h.div _ _) (near_div hc hc hc2 g2 g1))
  · rw [if_pos (by simpa using hl), if_pos (by simpa using hl)]
    exact rfl

/-! ## Without rounding -/

/-- Without rounding these are the turnover frequencies and reversibilities of the other files. -/
theorem C130_exact_tof (o : MFOwner ℝ) (hp : parseNetwork o.rxns = .ok o.net) (k : List ℝ × List ℝ) (cvgs rf rr : List ℝ) :
    rdTof Arith.exact o k cvgs = getTof o k cvgs ∧ rdReversibilities Arith.exact id rf rr = reversibilities rf rr := by
  refine ⟨?_, rfl⟩
  have hex := C130_exact o k cvgs ⟨[], 0, [], 0, 0, false⟩ ⟨none, none, none⟩
  cases hr : getRates o k cvgs with
  | error e =>
    unfold rdTof getTof
    rw [hex.2.2.1]
    unfold getNetRates
    rw [hr]
    rfl
  | ok r =>
    have hk : ∀ l : List ℝ, List.Forall₂ (Within 1) l l := fun l => List.forall₂_same.mpr fun x _ => near_refl (le_refl 1) x
    obtain ⟨L, hL⟩ : ∃ L : Nat, ∀ states ∈ o.net.rxns, ∀ fs ∈ states, fs.length ≤ L := by
      refine ⟨(o.net.rxns.flatten.map List.length).sum, fun states hs fs hf => ?_⟩
      exact List.le_sum_of_mem (List.mem_map_of_mem (List.mem_flatten_of_mem hs hf))
    obtain ⟨F, h1, h2, h3⟩ := C130_tof Arith.exact 0 exact_rounds o o hp ⟨rfl, rfl, rfl, rfl⟩ cvgs hex.1 1 (le_refl 1) k k (hk _) (hk _) L hL r.1 r.2 hr
    rw [h1, h2]
    refine congrArg Except.ok (List.map_congr_left fun x hx => ?_)
    have := h3 x hx
    simp only [add_zero, one_pow, mul_one, sub_self, zero_mul] at this
    exact sub_eq_zero.mp (abs_nonpos_iff.mp this)

/-! ## Free sites have no relative accuracy -/

/-- Adsorption of two gases. -/
def twoGases : List Str := [str! "CO_g + *_s -> CO_s", str! "NO_g + *_s -> NO_s"]

/-- The model of these reactions at unit pressures. -/
noncomputable def twoGasesModel : MFOwner ℝ := ⟨twoGases, netOf twoGases, [(str! "*_s", 1)], [(str! "CO_g", 1), (str! "NO_g", 1)], []⟩

theorem twoGases_ads : (netOf twoGases).ads = [str! "CO_s", str! "NO_s"] := by decide

theorem twoGases_ready : Ready twoGasesModel (fun _ => 1) (fun _ => 1) (fun _ => 0) where
  parse := by
    have : parseNetwork twoGases = .ok (netOf twoGases) := by decide
    exact this
  totals := by
    have : (netOf twoGases).sites = [str! "*_s"] := by decide
    intro s hs
    rw [show twoGasesModel.net.sites = _ from this, List.mem_singleton] at hs
    subst hs
    rfl
  pressures := by
    have : (netOf twoGases).gas = [str! "CO_g", str! "NO_g"] := by decide
    intro s hs
    rw [show twoGasesModel.net.gas = _ from this] at hs
    simp only [List.mem_cons, List.not_mem_nil, or_false] at hs
    rcases hs with rfl | rfl <;> rfl
  concs := by
    have : (netOf twoGases).liq = [] := by decide
    intro s hs
    rw [show twoGasesModel.net.liq = _ from this] at hs
    cases hs

theorem twoGases_cvg (A : Arith) (x y : ℝ) : rdCvgDict A twoGasesModel [x, y]
    = .ok [(str! "CO_s", x), (str! "NO_s", y), (str! "*_s", A.sub 1 (A.add (A.add 0 x) y))] := by
  have h1 : classifyAds (netOf twoGases) = .ok [(str! "*_s", [str! "CO_s", str! "NO_s"])] := by decide
  have h2 : (netOf twoGases).sites = [str! "*_s"] := by decide
  unfold rdCvgDict
  rw [show twoGasesModel.net = netOf twoGases from rfl, h1, twoGases_ads, h2]
  rfl

theorem twoGases_rates (A : Arith) (a b c d x y : ℝ) : rdRates A twoGasesModel ([a, b], [c, d]) [x, y]
    = .ok ([A.mul (A.mul a 1) (A.sub 1 (A.add (A.add 0 x) y)), A.mul (A.mul b 1) (A.sub 1 (A.add (A.add 0 x) y))], [A.mul c x, A.mul d y]) := by
  have h3 : (netOf twoGases).gas = [str! "CO_g", str! "NO_g"] := by decide
  have h4 : (netOf twoGases).liq = [] := by decide
  have h5 : twoGases.mapM (rateTerms twoGasesModel) = .ok [(⟨1, true, 0, [⟨.p, str! "CO_g", 1⟩, ⟨.theta, str! "*_s", 1⟩]⟩, ⟨1, false, 0, [⟨.theta, str! "CO_s", 1⟩]⟩),
      (⟨1, true, 1, [⟨.p, str! "NO_g", 1⟩, ⟨.theta, str! "*_s", 1⟩]⟩, ⟨1, false, 1, [⟨.theta, str! "NO_s", 1⟩]⟩)] := by
    have e : rateTerms twoGasesModel = rateTerms (⟨twoGases, netOf twoGases, [], [], []⟩ : MFOwner ℚ) := rfl
    rw [e]
    decide +kernel
  have hg : getData twoGasesModel = .ok ([(str! "CO_g", 1), (str! "NO_g", 1)], []) := by
    unfold getData
    rw [show twoGasesModel.net = netOf twoGases from rfl, h3, h4]
    rfl
  unfold rdRates rdEnv
  rw [twoGases_cvg, hg, show twoGasesModel.rxns = twoGases from rfl, h5]
  rfl

theorem roundTo_below {p : Nat} : roundTo (p + 1) (1 - 1 / 2 ^ (p + 2)) = 1 := by
  obtain ⟨t, ht⟩ : ∃ t : ℝ, t = 2 ^ p := ⟨_, rfl⟩
  have h1 : 1 ≤ t := by
    rw [ht]
    exact one_le_pow₀ (by norm_num)
  have hx : (1 : ℝ) - 1 / 2 ^ (p + 2) = 1 - 1 / (4 * t) := by
    rw [pow_add, ht]
    norm_num [mul_comm]
  have hs : 1 / (4 * t) ≤ 1 / 4 := by
    rw [div_le_div_iff₀ (by positivity) (by norm_num)]
    linarith
  have hs0 : 0 < 1 / (4 * t) := by positivity
  have hpos : 0 < 1 - 1 / (4 * t) := by linarith
  have hl : Int.log 2 |1 - 1 / (4 * t)| = -1 := by
    rw [abs_of_pos hpos]
    apply le_antisymm
    · have := (Int.lt_zpow_iff_log_lt (b := 2) (by norm_num) (x := 0) hpos).mp (by simp; linarith)
      omega
    · exact (Int.zpow_le_iff_le_log (b := 2) (by norm_num) hpos).mp (le_trans (b := (1 / 2 : ℝ)) (by norm_num) (by linarith))
  have hz : (2 : ℝ) ^ (((p + 1 : Nat) : ℤ) - 1 - -1) = 2 * t := by
    rw [show ((p + 1 : Nat) : ℤ) - 1 - -1 = p + 1 by push_cast; ring, zpow_add₀ (by norm_num), zpow_natCast, ← ht]
    norm_num [mul_comm]
  have hz' : (2 : ℝ) ^ (-1 - (((p + 1 : Nat) : ℤ) - 1)) = 1 / (2 * t) := by
    rw [← hz, show (-1 : ℤ) - (((p + 1 : Nat) : ℤ) - 1) = -(((p + 1 : Nat) : ℤ) - 1 - -1) by ring, zpow_neg, one_div]
  have hr : round ((1 - 1 / (4 * t)) * (2 * t)) = 2 * 2 ^ p := by
    rw [round_eq, Int.floor_eq_iff]
    have : (1 - 1 / (4 * t)) * (2 * t) = 2 * t - 1 / 2 := by field_simp; ring
    rw [this]
    push_cast
    rw [← ht]
    constructor <;> linarith
  rw [hx]
  unfold roundTo
  rw [hl, hz, hz', hr]
  push_cast
  rw [← ht]
  field_simp

/-- For every number of digits there are coverages, all of them numbers with these digits and with a positive coverage of free
sites, for which the computed coverage of free sites is zero, and so are the rates of all adsorptions. -/
theorem C130_sites_refuted (p : Nat) (hp : 1 ≤ p) :
    ∃ (o : MFOwner ℝ) (total P C : Str → ℝ) (v : Str → ℝ) (s a b : Str), Ready o total P C ∧
      (∀ x ∈ o.net.ads, 0 < v x ∧ roundTo (p + 1) (v x) = v x) ∧
      rdCvgDict (Arith.digits (p + 1)) o (o.net.ads.map v) = .ok [(a, v a), (b, v b), (s, 0)] ∧
      cvgTuple2Dict o (o.net.ads.map v) = .ok [(a, v a), (b, v b), (s, 1 / 2 ^ (p + 2))] ∧
      (∃ r, rdRates (Arith.digits (p + 1)) o ([1, 1], [1, 1]) (o.net.ads.map v) = .ok ([0, 0], r)) ∧
      ∃ r, getRates o ([1, 1], [1, 1]) (o.net.ads.map v) = .ok ([1 / 2 ^ (p + 2), 1 / 2 ^ (p + 2)], r) := by
  obtain ⟨t, ht⟩ : ∃ t : ℝ, t = 2 ^ p := ⟨_, rfl⟩
  have ht1 : 2 ≤ t := by
    rw [ht]
    calc (2 : ℝ) = 2 ^ 1 := by norm_num
      _ ≤ 2 ^ p := pow_le_pow_right₀ (by norm_num) hp
  have hq : (1 : ℝ) / 2 ^ (p + 2) = 1 / (4 * t) := by
    rw [pow_add, ht]
    norm_num [mul_comm]
  have hs : 1 / (4 * t) ≤ 1 / 8 := by
    rw [div_le_div_iff₀ (by positivity) (by norm_num)]
    linarith
  have hs0 : 0 < 1 / (4 * t) := by positivity
  have hhalf : roundTo (p + 1) (1 / 2) = 1 / 2 := roundTo_half ht
  have hsmall : roundTo (p + 1) (1 / 2 - 1 / 2 ^ (p + 2)) = 1 / 2 - 1 / 2 ^ (p + 2) := by
    rw [hq]
    have e := roundTo_eq (p := p + 1) (x := 1 / 2 - 1 / (4 * t)) (n := 2 * 2 ^ p - 1) (a := -2) (le_trans (b := (1 / 4 : ℝ)) (by norm_num) (by linarith)) (lt_of_lt_of_le (b := (1 / 2 : ℝ)) (by linarith) (by norm_num)) (by
      push_cast
      rw [show (p : ℤ) + 1 - 1 - -2 = p + 2 by ring, zpow_add₀ (by norm_num), zpow_natCast, ← ht,
        show (1 / 2 - 1 / (4 * t)) * (t * 2 ^ (2 : ℤ)) - (2 * t - 1) = 0 by norm_num; field_simp; ring]
      norm_num)
    rw [e]
    push_cast
    rw [show (-2 : ℤ) - (p + 1 - 1) = -2 - p by ring, zpow_sub₀ (by norm_num), zpow_natCast, ← ht]
    norm_num
    field_simp
    ring
  let v : Str → ℝ := fun x => if x = str! "CO_s" then 1 / 2 else 1 / 2 - 1 / 2 ^ (p + 2)
  have va : v (str! "CO_s") = 1 / 2 := if_pos rfl
  have vb : v (str! "NO_s") = 1 / 2 - 1 / 2 ^ (p + 2) := if_neg (by decide)
  have hmap : twoGasesModel.net.ads.map v = [1 / 2, 1 / 2 - 1 / 2 ^ (p + 2)] := by
    rw [show twoGasesModel.net.ads = _ from twoGases_ads, List.map_cons, List.map_cons, List.map_nil, va, vb]
  have hfree : (Arith.digits (p + 1)).sub 1 ((Arith.digits (p + 1)).add ((Arith.digits (p + 1)).add 0 (1 / 2)) (1 / 2 - 1 / 2 ^ (p + 2))) = 0 := by
    show roundTo (p + 1) (1 - roundTo (p + 1) (roundTo (p + 1) (0 + 1 / 2) + (1 / 2 - 1 / 2 ^ (p + 2)))) = 0
    rw [zero_add, hhalf, show (1 : ℝ) / 2 + (1 / 2 - 1 / 2 ^ (p + 2)) = 1 - 1 / 2 ^ (p + 2) by ring, roundTo_below, sub_self, roundTo_zero]
  have hmul : ∀ x, (Arith.digits (p + 1)).mul x 0 = 0 := fun x => by
    show roundTo (p + 1) (x * 0) = 0
    rw [mul_zero, roundTo_zero]
  have hex := C130_exact twoGasesModel ([1, 1], [1, 1]) [1 / 2, 1 / 2 - 1 / 2 ^ (p + 2)] ⟨[], 0, [], 0, 0, false⟩ ⟨none, none, none⟩
  refine ⟨twoGasesModel, _, _, _, v, str! "*_s", str! "CO_s", str! "NO_s", twoGases_ready, ?_, ?_, ?_, ?_, ?_⟩
  · intro x hx
    rw [show twoGasesModel.net.ads = _ from twoGases_ads] at hx
    simp only [List.mem_cons, List.not_mem_nil, or_false] at hx
    rcases hx with rfl | rfl
    · rw [va]
      exact ⟨by norm_num, hhalf⟩
    · rw [vb]
      refine ⟨?_, hsmall⟩
      rw [hq]
      linarith
  · rw [hmap, twoGases_cvg, va, vb, hfree]
  · rw [hmap, ← hex.1, twoGases_cvg, va, vb]
    simp only [Arith.exact]
    congr 5
    ring
  · rw [hmap, twoGases_rates, hfree, hmul]
    exact ⟨_, rfl⟩
  · rw [hmap, ← hex.2.1, twoGases_rates]
    simp only [Arith.exact]
    refine ⟨_, congrArg Except.ok (Prod.ext ?_ rfl)⟩
    simp only [List.cons.injEq, and_true]
    constructor <;> ring

/-- The hypotheses of the theorems on turnover frequencies and reversibilities. -/
example : ∃ (o' : MFOwner ℝ) (rf rr : List ℝ) (F : Str → ℝ × ℝ), SameButTotals twoGasesModel o' ∧ getRates o' ([3, 2], [5, 7]) [1 / 2, 1 / 4] = .ok (rf, rr) ∧
    rdTof (Arith.digits 53) twoGasesModel ([3, 2], [5, 7]) [1 / 2, 1 / 4] = .ok ((twoGasesModel.net.gas ++ twoGasesModel.net.liq).map fun x => (F x).1) ∧
    getTof o' ([3, 2], [5, 7]) [1 / 2, 1 / 4] = .ok ((twoGasesModel.net.gas ++ twoGasesModel.net.liq).map fun x => (F x : ℝ × ℝ).2) ∧
    ∃ x y, rdReversibilities (Arith.digits 53) (roundTo 53) [3, 4] [1, 2] = .ok [x, y] ∧
      Within ((1 + 1 / 2 ^ 53) * ((1 + 1 / 2 ^ 53) * (1 / (2 - 1)))) x (1 / 3) ∧ Within ((1 + 1 / 2 ^ 53) * ((1 + 1 / 2 ^ 53) * (1 / (2 - 1)))) y (1 / 2) := by
  have hads : twoGasesModel.net.ads.map (fun x => if x = str! "CO_s" then (1 / 2 : ℝ) else 1 / 4) = [1 / 2, 1 / 4] := by
    rw [show twoGasesModel.net.ads = _ from twoGases_ads]
    simp
  obtain ⟨o', total', hs, hr, hd, -⟩ := C130_sites (Arith.digits 53) _ (digits_rounds 53) twoGasesModel _ _ _ twoGases_ready
    (fun x => if x = str! "CO_s" then (1 / 2 : ℝ) else 1 / 4)
  rw [hads] at hd
  have hk : ∀ l : List ℝ, List.Forall₂ (Within 1) l l := fun l => List.forall₂_same.mpr fun x _ => near_refl (le_refl 1) x
  have hL : ∀ states ∈ twoGasesModel.net.rxns, ∀ fs ∈ states, fs.length ≤ 2 := by
    have : ∀ states ∈ (netOf twoGases).rxns, ∀ fs ∈ states, fs.length ≤ 2 := by decide
    exact this
  have hrel := C130_rates (Arith.digits 53) _ (digits_rounds 53) twoGasesModel o' hs _ hd 1 (le_refl 1) ([3, 2], [5, 7]) ([3, 2], [5, 7]) (hk _) (hk _) 2 hL
  rw [twoGases_rates] at hrel
  obtain ⟨⟨rf, rr⟩, hrr, -⟩ := relPy_ok_left hrel
  obtain ⟨F, h1, h2, -⟩ := C130_tof (Arith.digits 53) _ (digits_rounds 53) twoGasesModel o' twoGases_ready.parse hs _ hd 1 (le_refl 1)
    ([3, 2], [5, 7]) ([3, 2], [5, 7]) (hk _) (hk _) 2 hL rf rr hrr
  have hv := C130_reversibilities (Arith.digits 53) _ (digits_rounds 53) (roundTo 53) (1 / 2 ^ 53) (by positivity) (roundTo_within 53) 1 (le_refl 1) (by norm_num)
    [3, 4] [1, 2] [3, 4] [1, 2] (hk _) (hk _)
  have he : reversibilities [(3 : ℝ), 4] [1, 2] = .ok [1 / 3, 1 / 2] := by
    unfold reversibilities
    rw [if_neg (by simp)]
    simp only [List.zip_cons_cons, List.zip_nil_right, List.mapM_cons, List.mapM_nil]
    rw [if_neg (by norm_num), if_neg (by norm_num)]
    refine congrArg Except.ok ?_
    norm_num
  rw [he] at hv
  obtain ⟨l, hl, hf⟩ := relPy_ok_right hv
  rw [hl]
  cases hf with
  | cons a hf =>
    cases hf with
    | cons b hf =>
      cases hf
      exact ⟨o', rf, rr, F, hs, hrr, h1, h2, _, _, rfl, a, b⟩

end Verif
