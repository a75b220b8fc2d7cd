import Verif.Spec.Rounding
import Verif.Lemmas.MeanField
import Mathlib.Tactic.Ring
import Mathlib.Tactic.Positivity
import Mathlib.Tactic.FieldSimp
import Mathlib.Analysis.SpecialFunctions.Exp
/-
Error propagation.
-/
namespace Verif
open Dict

theorem near_refl {c : ℝ} (hc : 1 ≤ c) (x : ℝ) : Within c x x := by
  unfold Within
  rw [sub_self, abs_zero]
  exact mul_nonneg (by linarith) (abs_nonneg x)

theorem near_mono {c d x y : ℝ} (h : Within c x y) (hcd : c ≤ d) : Within d x y :=
  le_trans h (mul_le_mul_of_nonneg_right (by linarith) (abs_nonneg y))

theorem near_size {c x y : ℝ} (h : Within c x y) : |x| ≤ c * |y| := by
  have h1 : |x| ≤ |x - y| + |y| := by
    have := abs_add_le (x - y) y
    rwa [sub_add_cancel] at this
  unfold Within at h
  linarith

theorem near_mul {c d x y x' y' : ℝ} (hc : 1 ≤ c) (h : Within c x y) (h' : Within d x' y') :
    Within (c * d) (x * x') (y * y') := by
  have hs := near_size h'
  unfold Within at h h' ⊢
  have e : x * x' - y * y' = (x - y) * x' + y * (x' - y') := by ring
  rw [e, abs_mul]
  refine le_trans (abs_add_le _ _) ?_
  rw [abs_mul, abs_mul]
  have h1 : |x - y| * |x'| ≤ (c - 1) * |y| * (d * |y'|) :=
    mul_le_mul h hs (abs_nonneg _) (mul_nonneg (by linarith) (abs_nonneg _))
  have h2 : |y| * |x' - y'| ≤ |y| * ((d - 1) * |y'|) := mul_le_mul_of_nonneg_left h' (abs_nonneg _)
  nlinarith

theorem near_trans {c d x y z : ℝ} (hc : 1 ≤ c) (h : Within c x y) (h' : Within d y z) : Within (c * d) x z := by
  have hs := near_size h'
  unfold Within at h h' ⊢
  have h1 : |x - z| ≤ |x - y| + |y - z| := by
    have := abs_add_le (x - y) (y - z)
    rwa [sub_add_sub_cancel] at this
  have h2 : (c - 1) * |y| ≤ (c - 1) * (d * |z|) := mul_le_mul_of_nonneg_left hs (by linarith)
  nlinarith

theorem near_one {x y : ℝ} (h : Within 1 x y) : x = y := by
  unfold Within at h
  rw [sub_self, zero_mul] at h
  have := le_antisymm h (abs_nonneg _)
  rw [abs_eq_zero] at this
  linarith

/-- Results off by less than their own size keep their sign. -/
theorem near_pos {c x y : ℝ} (hc : c < 2) (h : Within c x y) : 0 < x ↔ 0 < y := by
  unfold Within at h
  rcases lt_trichotomy y 0 with hy | hy | hy
  · rw [abs_of_neg hy] at h
    have := (abs_le.mp h).2
    constructor
    · intro hx; nlinarith
    · intro h'; linarith
  · subst hy
    simp at h
    rw [h]
  · rw [abs_of_pos hy] at h
    have := (abs_le.mp h).1
    constructor
    · intro _; exact hy
    · intro _; nlinarith

theorem near_zero {c x y : ℝ} (hc : c < 2) (h : Within c x y) : x = 0 ↔ y = 0 := by
  unfold Within at h
  constructor
  · rintro rfl
    rw [zero_sub, abs_neg] at h
    by_contra hy
    have := abs_pos.mpr hy
    nlinarith
  · rintro rfl
    simpa using h

theorem relPy_bind {α β γ δ : Type} {R : α → β → Prop} {S : γ → δ → Prop} {x : Py α} {y : Py β} {f : α → Py γ} {g : β → Py δ}
    (h : RelPy R x y) (hfg : ∀ a b, R a b → RelPy S (f a) (g b)) : RelPy S (x >>= f) (y >>= g) := by
  cases x <;> cases y
  · exact h
  · exact h.elim
  · exact h.elim
  · exact hfg _ _ h

theorem relPy_mono {α β : Type} {R S : α → β → Prop} {x : Py α} {y : Py β} (h : RelPy R x y) (hRS : ∀ a b, R a b → S a b) :
    RelPy S x y := by
  cases x <;> cases y
  · exact h
  · exact h
  · exact h
  · exact hRS _ _ h

theorem relPy_eq {α : Type} {R : α → α → Prop} (hR : ∀ a, R a a) (x : Py α) : RelPy R x x := by
  cases x
  · rfl
  · exact hR _

theorem relPy_ok_right {α β : Type} {R : α → β → Prop} {x : Py α} {b : β} (h : RelPy R x (.ok b)) :
    ∃ a, x = .ok a ∧ R a b := by
  cases x
  · exact h.elim
  · exact ⟨_, rfl, h⟩

theorem relPy_ok_left {α β : Type} {R : α → β → Prop} {a : α} {y : Py β} (h : RelPy R (.ok a) y) :
    ∃ b, y = .ok b ∧ R a b := by
  cases y
  · exact h.elim
  · exact ⟨_, rfl, h⟩

theorem relPy_mapM {α β γ δ : Type} {R : γ → δ → Prop} {f : α → Py γ} {g : β → Py δ} {l : List α} {l' : List β}
    (h : List.Forall₂ (fun a b => RelPy R (f a) (g b)) l l') : RelPy (List.Forall₂ R) (l.mapM f) (l'.mapM g) := by
  induction h with
  | nil => exact List.Forall₂.nil
  | cons h1 _ ih =>
    rw [List.mapM_cons, List.mapM_cons]
    refine relPy_bind h1 fun a b hab => relPy_bind ih fun as bs habs => ?_
    exact List.Forall₂.cons hab habs

theorem relPy_mapM_same {α γ δ : Type} {R : γ → δ → Prop} {f : α → Py γ} {g : α → Py δ} {l : List α}
    (h : ∀ a ∈ l, RelPy R (f a) (g a)) : RelPy (List.Forall₂ R) (l.mapM f) (l.mapM g) :=
  relPy_mapM (List.forall₂_same.mpr h)

variable {A : Arith} {u : ℝ}

theorem Arith.Rounds.one_le (h : A.Rounds u) (n : Nat) : 1 ≤ (1 + u) ^ n :=
  one_le_pow₀ (by linarith [h.nonneg])

theorem near_opMul (h : A.Rounds u) {c d x y x' y' : ℝ} (hc : 1 ≤ c) (h1 : Within c x y) (h2 : Within d x' y') :
    Within ((1 + u) * (c * d)) (A.mul x x') (y * y') :=
  near_trans (by linarith [h.nonneg]) (h.mul x x') (near_mul hc h1 h2)

/-- Sums from left to right, each step up to the part `u`, with terms that are off by the factor `c`. -/
theorem near_sum (h : A.Rounds u) {c : ℝ} (hc : 1 ≤ c) (l : List (Bool × ℝ)) (m : List (Bool × ℝ))
    (hl : List.Forall₂ (fun x y => x.1 = y.1 ∧ Within c x.2 y.2) l m) (n : Nat) (s s' G : ℝ) (hs : |s - s'| ≤ (c * (1 + u) ^ n - 1) * G) (hG : |s'| ≤ G) :
    |l.foldl (fun s y => if y.1 then A.add s y.2 else A.sub s y.2) s - (s' + (m.map fun y => if y.1 then y.2 else -y.2).sum)|
      ≤ (c * (1 + u) ^ (n + l.length) - 1) * (G + (m.map fun y => |y.2|).sum) := by
  induction hl generalizing n s s' G with
  | nil => simpa using hs
  | @cons x y l m hxy _ ih =>
    obtain ⟨h1, h2⟩ := hxy
    rw [List.foldl_cons, List.map_cons, List.sum_cons, List.map_cons, List.sum_cons, List.length_cons, show n + (l.length + 1) = (n + 1) + l.length by omega, ← add_assoc s', ← add_assoc G]
    have hcn : 1 ≤ c * (1 + u) ^ n := by
      have := h.one_le n
      nlinarith
    have hu := h.nonneg
    have key : ∀ z z' t : ℝ, |z - z'| ≤ (c * (1 + u) ^ n - 1) * |y.2| → |z'| = |y.2| → |t - (s + z)| ≤ u * |s + z| →
        |t - (s' + z')| ≤ (c * (1 + u) ^ (n + 1) - 1) * (G + |y.2|) := by
      intro z z' t hz hz' ht
      have e1 : |s + z - (s' + z')| ≤ (c * (1 + u) ^ n - 1) * (G + |y.2|) := by
        have : s + z - (s' + z') = (s - s') + (z - z') := by ring
        rw [this]
        refine le_trans (abs_add_le _ _) ?_
        linarith
      have e2 : |s' + z'| ≤ G + |y.2| := by
        refine le_trans (abs_add_le _ _) ?_
        linarith
      have e3 : |s + z| ≤ c * (1 + u) ^ n * (G + |y.2|) := by
        have := abs_add_le (s + z - (s' + z')) (s' + z')
        rw [sub_add_cancel] at this
        linarith
      have e4 : |t - (s' + z')| ≤ |t - (s + z)| + |s + z - (s' + z')| := by
        have := abs_add_le (t - (s + z)) (s + z - (s' + z'))
        rwa [sub_add_sub_cancel] at this
      have e5 : u * |s + z| ≤ u * (c * (1 + u) ^ n * (G + |y.2|)) := mul_le_mul_of_nonneg_left e3 hu
      rw [pow_succ]
      linarith
    have h2' : |x.2 - y.2| ≤ (c * (1 + u) ^ n - 1) * |y.2| := near_mono h2 (by
      have := h.one_le n
      nlinarith)
    refine ih (n + 1) _ (s' + if y.1 then y.2 else -y.2) (G + |y.2|) ?_ ?_
    · rw [h1]
      by_cases hb : y.1
      · rw [if_pos hb, if_pos hb]
        refine key x.2 y.2 _ h2' rfl ?_
        have := h.add s x.2
        unfold Within at this
        rwa [add_sub_cancel_left] at this
      · rw [if_neg hb, if_neg hb]
        refine key (-x.2) (-y.2) _ ?_ (abs_neg _) ?_
        · rwa [neg_sub_neg, abs_sub_comm]
        · have := h.sub s x.2
          unfold Within at this
          rwa [add_sub_cancel_left, sub_eq_add_neg] at this
    · refine le_trans (abs_add_le _ _) ?_
      have : |if y.1 then y.2 else -y.2| = |y.2| := by
        split
        · rfl
        · exact abs_neg _
      rw [this]
      linarith

theorem near_sum0 (h : A.Rounds u) (cs : List ℝ) :
    |cs.foldl A.add 0 - cs.sum| ≤ ((1 + u) ^ cs.length - 1) * (cs.map fun x => |x|).sum := by
  have := near_sum h (le_refl 1) (cs.map fun x => (true, x)) (cs.map fun x => (true, x))
    (List.forall₂_same.mpr fun x _ => ⟨rfl, near_refl (le_refl 1) _⟩) 0 0 0 0 (by simp) (by simp)
  simpa [List.foldl_map, Function.comp_def] using this

/-- The total that explains the computed free coverage of a site. -/
noncomputable def rdTotal (A : Arith) (n : Network) (total v : Str → ℝ) (s : Str) : ℝ :=
  A.sub (total s) (((n.ads.filter (fun a => OnSite a s)).map v).foldl A.add 0) + ((n.ads.filter (fun a => OnSite a s)).map v).sum

/-- The model with these totals. -/
noncomputable def rdOwner (A : Arith) (o : MFOwner ℝ) (total v : Str → ℝ) : MFOwner ℝ :=
  { o with totals := o.net.sites.map fun s => (s, rdTotal A o.net total v s) }

theorem rdTotal_near (h : A.Rounds u) (n : Network) (total v : Str → ℝ) (s : Str) :
    |rdTotal A n total v s - total s| ≤ ((1 + u) ^ ((n.ads.filter (fun a => OnSite a s)).length + 1) - 1)
      * (|total s| + ((n.ads.filter (fun a => OnSite a s)).map fun a => |v a|).sum) := by
  set cs := (n.ads.filter (fun a => OnSite a s)).map v with hcs
  have h0 := near_sum0 h cs
  have hlen : cs.length = (n.ads.filter (fun a => OnSite a s)).length := by simp [hcs]
  have hab : (cs.map fun x => |x|) = (n.ads.filter (fun a => OnSite a s)).map fun a => |v a| := by simp [hcs, Function.comp_def]
  rw [← hlen, ← hab]
  have h1 := h.sub (total s) (cs.foldl A.add 0)
  unfold Within at h1
  rw [add_sub_cancel_left] at h1
  have hu := h.nonneg
  have hp := h.one_le cs.length
  set B := (cs.map fun x => |x|).sum with hB
  have hBs : |cs.sum| ≤ B := by
    rw [hB]
    clear * -
    induction cs with
    | nil => simp
    | cons a l ih =>
      rw [List.sum_cons, List.map_cons, List.sum_cons]
      exact le_trans (abs_add_le _ _) (by linarith)
  unfold rdTotal
  rw [← hcs]
  set F := cs.foldl A.add 0
  have e : A.sub (total s) F + cs.sum - total s = (A.sub (total s) F - (total s - F)) + (cs.sum - F) := by ring
  rw [e]
  have hF : |F| ≤ (1 + u) ^ cs.length * B := by
    have := abs_add_le (F - cs.sum) cs.sum
    rw [sub_add_cancel] at this
    linarith
  have ht : |total s - F| ≤ |total s| + |F| := abs_sub _ _
  have h2 : u * |total s - F| ≤ u * (|total s| + (1 + u) ^ cs.length * B) := mul_le_mul_of_nonneg_left (by linarith) hu
  refine le_trans (abs_add_le _ _) ?_
  rw [abs_sub_comm cs.sum F, pow_succ]
  have h3 : 0 ≤ |total s| := abs_nonneg _
  have h4 : u * |total s| ≤ ((1 + u) ^ cs.length * (1 + u) - 1) * |total s| := by
    refine mul_le_mul_of_nonneg_right ?_ h3
    nlinarith
  nlinarith

theorem rdFreeSites_eq (A : Arith) (totals : Dict Str ℝ) (cls : Dict Str (List Str)) (n : Network) (v total : Str → ℝ) (all : List Str)
    (d : Dict Str ℝ) (ss : List Str) (hsub : ∀ s ∈ ss, s ∈ all)
    (hdis : ∀ s ∈ ss, s ∉ n.ads)
    (hads : ∀ a ∈ n.ads, get? d a = some (v a))
    (htot : ∀ s ∈ ss, get? totals s = some (total s))
    (hcls : ∀ s ∈ ss, get? cls s = some (n.ads.filter (fun a => OnSite a s))) :
    rdFreeSites A totals cls d ss = freeSites (all.map fun s => (s, rdTotal A n total v s)) cls d ss := by
  induction ss generalizing d with
  | nil => rfl
  | cons s ss ih =>
    have hm : (n.ads.filter (fun a => OnSite a s)).mapM (dictGet d)
        = .ok ((n.ads.filter (fun a => OnSite a s)).map v) :=
      mapM_dictGet fun x hx => hads x (List.mem_filter.mp hx).1
    have hd := dictGet_ok.mpr (get?_map_pair (P := rdTotal A n total v) (hsub s (by simp)))
    unfold rdFreeSites freeSites
    simp only [bind, Except.bind, dictGet_ok.mpr (htot s (by simp)), dictGet_ok.mpr (hcls s (by simp)), hm, hd]
    have e : rdTotal A n total v s - ((n.ads.filter (fun a => OnSite a s)).map v).sum
        = A.sub (total s) (((n.ads.filter (fun a => OnSite a s)).map v).foldl A.add 0) := by
      unfold rdTotal; ring
    rw [e]
    exact ih _ (fun t ht => hsub t (by simp [ht])) (fun t ht => hdis t (by simp [ht]))
      (fun a ha => by
        rw [get?_setDefault, if_neg (fun e : s = a => hdis s (by simp) (e ▸ ha))]
        exact hads a ha)
      (fun t ht => htot t (by simp [ht])) (fun t ht => hcls t (by simp [ht]))

theorem rdCvgDict_eq {o : MFOwner ℝ} {total P C : Str → ℝ} (h : Ready o total P C) (v : Str → ℝ) :
    rdCvgDict A o (o.net.ads.map v) = cvgTuple2Dict (rdOwner A o total v) (o.net.ads.map v) := by
  obtain ⟨cls, hc1, hc2⟩ := classifyAds_ok h.parse
  obtain ⟨d1, ha1, ha2⟩ := adsCoverages_ok o.net.ads v [] o.net.ads (fun a ha => ha)
  unfold rdCvgDict cvgTuple2Dict rdOwner
  simp only [bind, Except.bind, hc1, ha1]
  exact rdFreeSites_eq A o.totals cls o.net v total o.net.sites d1 o.net.sites (fun s hs => hs) (sites_disjoint h.parse)
    (fun a ha => by rw [ha2]; simp [get?, ha]) h.totals (fun s hs => by rw [hc2, if_pos hs])

theorem rdOwner_ready {o : MFOwner ℝ} {total P C : Str → ℝ} (h : Ready o total P C) (v : Str → ℝ) :
    Ready (rdOwner A o total v) (rdTotal A o.net total v) P C :=
  ⟨h.parse, fun _ hs => get?_map_pair hs, h.pressures, h.concs⟩

/-- Two environments with the same dictionaries, whose constants are off by at most the factor `c`. -/
structure EnvWithin (c : ℝ) (e e' : Env ℝ) : Prop where
  kf : List.Forall₂ (Within c) e.kf e'.kf
  kr : List.Forall₂ (Within c) e.kr e'.kr
  theta : e.theta = e'.theta
  p : e.p = e'.p
  c : e.c = e'.c

theorem rdFactor_near (h : A.Rounds u) {c : ℝ} {e e' : Env ℝ} (he : EnvWithin c e e') (f : Factor) :
    RelPy (Within (1 + u)) (rdFactor A e f) (evalFactor e' f) := by
  unfold rdFactor evalFactor
  rw [he.theta, he.p, he.c]
  have key : ∀ d : Dict Str ℝ, RelPy (Within (1 + u)) (dictGet d f.name >>= fun x => pure (if f.pow = 1 then x else A.pow x f.pow))
      (dictGet d f.name >>= fun x => pure (x ^ f.pow)) := by
    intro d
    refine relPy_bind (R := Eq) (relPy_eq (fun _ => rfl) _) ?_
    rintro x _ rfl
    show Within _ _ _
    by_cases h1 : f.pow = 1
    · rw [if_pos h1, h1, pow_one]
      exact near_refl (by linarith [h.nonneg]) x
    · rw [if_neg h1]
      exact h.pow x f.pow
  cases f.var <;> exact key _

theorem near_foldMul (h : A.Rounds u) {c : ℝ} (hc : 1 ≤ c) {xs ys : List ℝ} (hxy : List.Forall₂ (Within (1 + u)) xs ys) (a b : ℝ) (hab : Within c a b) :
    Within (c * (1 + u) ^ (2 * xs.length)) (xs.foldl A.mul a) (b * ys.prod) := by
  induction hxy generalizing c a b with
  | nil => simpa using hab
  | @cons x y xs ys hx _ ih =>
    have hu := h.nonneg
    have h1 := near_opMul h hc hab hx
    have := ih (c := (1 + u) * (c * (1 + u))) (one_le_mul_of_one_le_of_one_le (by linarith) (one_le_mul_of_one_le_of_one_le hc (by linarith))) _ _ h1
    rw [List.foldl_cons, List.prod_cons, ← mul_assoc]
    refine near_mono this (le_of_eq ?_)
    rw [List.length_cons, show 2 * (xs.length + 1) = 2 * xs.length + 2 by ring, pow_add]
    ring

theorem getElem?_forall₂ {α β : Type} {R : α → β → Prop} {l : List α} {m : List β} (h : List.Forall₂ R l m) (i : Nat) :
    (l[i]? = none ∧ m[i]? = none) ∨ ∃ a b, l[i]? = some a ∧ m[i]? = some b ∧ R a b := by
  induction h generalizing i with
  | nil => left; simp
  | cons h1 _ ih =>
    cases i with
    | zero => right; exact ⟨_, _, by simp, by simp, h1⟩
    | succ i => simpa using ih i

theorem rdTerm_near (h : A.Rounds u) {c : ℝ} (hc : 1 ≤ c) {e e' : Env ℝ} (he : EnvWithin c e e') (t : Term) {L : Nat} (hL : t.factors.length ≤ L) :
    RelPy (Within (c * (1 + u) ^ (2 * L + 1))) (rdTerm A e t) (evalTerm e' t) := by
  have hk : List.Forall₂ (Within c) (if t.fwd then e.kf else e.kr) (if t.fwd then e'.kf else e'.kr) := by
    split
    · exact he.kf
    · exact he.kr
  have hu := h.nonneg
  unfold rdTerm evalTerm
  rcases getElem?_forall₂ hk t.idx with ⟨h1, h2⟩ | ⟨a, b, h1, h2, h3⟩
  · rw [h1, h2]
    rfl
  · rw [h1, h2]
    refine relPy_bind (R := Within c) h3 ?_
    clear h3 h1 h2 a b
    intro a b hab
    have hm := relPy_mapM_same (l := t.factors) fun f _ => rdFactor_near h he f
    cases h5 : t.factors.mapM (rdFactor A e) with
    | error x =>
      rw [h5] at hm
      cases h6 : t.factors.mapM (evalFactor e') with
      | error y => rw [h6] at hm; exact hm
      | ok y => rw [h6] at hm; exact hm.elim
    | ok xs =>
      rw [h5] at hm
      obtain ⟨ys, h6, hxy⟩ := relPy_ok_left hm
      rw [h6]
      have hlen : xs.length ≤ L := by
        have := (mapM_ok_inv h5).1
        omega
      have h0 : Within (c * (1 + u)) (if t.coef = 1 then a else A.mul t.coef a) ((t.coef : ℝ) * b) := by
        by_cases h1 : t.coef = 1
        · rw [if_pos h1, h1]
          simp only [Nat.cast_one, one_mul]
          exact near_mono hab (by nlinarith)
        · rw [if_neg h1]
          refine near_mono (near_opMul h (le_refl 1) (near_refl (le_refl 1) (t.coef : ℝ)) hab) (le_of_eq (by ring))
      have := near_foldMul h (by nlinarith) hxy _ _ h0
      refine near_mono this ?_
      rw [mul_assoc, ← pow_succ']
      exact mul_le_mul_of_nonneg_left (pow_le_pow_right₀ (by linarith) (by omega)) (by linarith)



theorem rateTerms_len {o : MFOwner ℝ} {L : Nat} (hL : ∀ states ∈ o.net.rxns, ∀ fs ∈ states, fs.length ≤ L) {rxn : Str} {t : Term × Term}
    (h : rateTerms o rxn = .ok t) : t.1.factors.length ≤ L ∧ t.2.factors.length ≤ L ∧ t.1.coef = 1 ∧ t.2.coef = 1 := by
  unfold rateTerms at h
  split at h
  · cases h
  · split at h
    · cases h
    · rename_i states hs
      have hm := List.mem_of_getElem? hs
      split at h
      · rename_i is fs h1 h2
        cases h
        refine ⟨?_, ?_, rfl, rfl⟩
        · simpa using hL states hm is (List.mem_of_head? h1)
        · simpa using hL states hm fs (List.mem_of_getLast? h2)
      · cases h

theorem evalTerm_coef {env : Env ℝ} {t : Term} {x : ℝ} (h : evalTerm env t = .ok x) (h1 : t.coef = 1) (n : Nat) :
    evalTerm env { t with coef := n } = .ok ((n : ℝ) * x) := by
  unfold evalTerm at h ⊢
  dsimp only
  cases hk : (if t.fwd then env.kf else env.kr)[t.idx]? with
  | none => rw [hk] at h; cases h
  | some k =>
    rw [hk] at h
    simp only [bind, Except.bind] at h ⊢
    cases hm : t.factors.mapM (evalFactor env) with
    | error e => rw [hm] at h; cases h
    | ok ys =>
      rw [hm, h1] at h
      rw [← Except.ok.inj h]
      simp only [pure, Except.pure, Nat.cast_one]
      congr 1
      ring

theorem findAds_eq (a : Str) (states : List (List Formula)) :
    (findAds a states).map (·.2) = (states.flatten.find? (·.speciesSite = a)).map (·.stoich) := by
  induction states with
  | nil => rfl
  | cons fs rest ih =>
    unfold findAds
    rw [List.flatten_cons, List.find?_append]
    cases h : fs.find? (·.speciesSite = a) with
    | some f => rfl
    | none =>
      dsimp only
      rw [Option.none_or, ← ih]
      cases findAds a rest <;> rfl

/-- The terms of one adsorbate, evaluated. -/
theorem poly_ok {o : MFOwner ℝ} {env : Env ℝ} {L : Nat} (hL : ∀ states ∈ o.net.rxns, ∀ fs ∈ states, fs.length ≤ L) {a : Str} (ha : a ∈ o.net.ads)
    (l : List Str) (hp : ∀ rxn ∈ l, ∃ states, eqnFormulas rxn = .ok states) (ts : List (Term × Term)) (rf rr : List ℝ)
    (h1 : l.mapM (rateTerms o) = .ok ts) (h2 : ts.mapM (fun t => evalTerm env t.1) = .ok rf) (h3 : ts.mapM (fun t => evalTerm env t.2) = .ok rr) :
    ∃ es : List (Option (Term × Term)), l.mapM (elementaryDtheta o a) = .ok es ∧
      ∃ m : List (Bool × ℝ), ((es.flatMap fun x => match x with
          | none => []
          | some (inc, dec) => [(true, inc), (false, dec)]).mapM fun t => do
            let x ← evalTerm env t.2
            pure (t.1, x)) = .ok m ∧
        (∀ t ∈ (es.flatMap fun x => match x with
          | none => []
          | some (inc, dec) => [(true, inc), (false, dec)]), t.2.factors.length ≤ L) ∧
        (m.map fun y => |y.2|).sum = turnoverOf a l rf rr ∧ m.length ≤ 2 * l.length := by
  induction l generalizing ts rf rr with
  | nil => exact ⟨[], rfl, [], rfl, by simp, by simp [turnoverOf, List.zipWith3], by simp⟩
  | cons rxn l ih =>
    rw [List.mapM_cons, bind_ok] at h1
    obtain ⟨t, ht, h1⟩ := h1
    rw [bind_ok] at h1
    obtain ⟨ts', hts, h1⟩ := h1
    rw [pure_ok] at h1
    subst h1
    rw [List.mapM_cons, bind_ok] at h2 h3
    obtain ⟨f, hf, h2⟩ := h2
    obtain ⟨r, hr, h3⟩ := h3
    rw [bind_ok] at h2 h3
    obtain ⟨rf', hrf, h2⟩ := h2
    obtain ⟨rr', hrr, h3⟩ := h3
    rw [pure_ok] at h2 h3
    subst h2 h3
    obtain ⟨es, he, m, hm, hfac, hsum, hlen⟩ := ih (fun x hx => hp x (by simp [hx])) ts' rf' rr' hts hrf hrr
    obtain ⟨states, hst⟩ := hp rxn (by simp)
    obtain ⟨l1, l2, c1, c2⟩ := rateTerms_len hL ht
    have hco := findAds_eq a states
    have hturn : turnoverOf a (rxn :: l) (f :: rf') (r :: rr') = (firstCoef a rxn : ℝ) * (|f| + |r|) + turnoverOf a l rf' rr' := by
      simp [turnoverOf, List.zipWith3]
    rw [hturn]
    have hfc : firstCoef a rxn = ((findAds a states).map (·.2)).getD 0 := by
      unfold firstCoef
      rw [hst]
      dsimp only
      rw [hco]
    cases hfa : findAds a states with
    | none =>
      refine ⟨none :: es, ?_, m, ?_, ?_, ?_, ?_⟩
      · rw [List.mapM_cons, he]
        unfold elementaryDtheta
        rw [if_neg (by simpa using ha), hst]
        simp only [bind, Except.bind, hfa]
        rfl
      · simpa using hm
      · simpa using hfac
      · rw [hfc, hfa, hsum]; simp
      · simp; omega
    | some x =>
      obtain ⟨i, n⟩ := x
      have habs : ∀ z : ℝ, |(n : ℝ) * z| = n * |z| := fun z => by rw [abs_mul, abs_of_nonneg (Nat.cast_nonneg n)]
      by_cases hi : i = 0
      · refine ⟨some ({ t.2 with coef := n }, { t.1 with coef := n }) :: es, ?_, (true, (n : ℝ) * r) :: (false, (n : ℝ) * f) :: m, ?_, ?_, ?_, ?_⟩
        · rw [List.mapM_cons, he]
          unfold elementaryDtheta
          rw [if_neg (by simpa using ha), hst]
          simp only [bind, Except.bind, hfa, ht]
          rw [if_pos hi]
          rfl
        · rw [List.flatMap_cons]
          simp only [List.cons_append, List.nil_append]
          rw [List.mapM_cons, List.mapM_cons, hm]
          simp only [evalTerm_coef hr c2, evalTerm_coef hf c1, bind, Except.bind, pure, Except.pure]
        · rw [List.flatMap_cons]
          simp only [List.cons_append, List.nil_append, List.mem_cons]
          rintro y (rfl | rfl | hy)
          · exact l2
          · exact l1
          · exact hfac y hy
        · rw [hfc, hfa, ← hsum]
          simp only [List.map_cons, List.sum_cons, habs, Option.map_some, Option.getD_some]
          ring
        · simp; omega
      · refine ⟨some ({ t.1 with coef := n }, { t.2 with coef := n }) :: es, ?_, (true, (n : ℝ) * f) :: (false, (n : ℝ) * r) :: m, ?_, ?_, ?_, ?_⟩
        · rw [List.mapM_cons, he]
          unfold elementaryDtheta
          rw [if_neg (by simpa using ha), hst]
          simp only [bind, Except.bind, hfa, ht]
          rw [if_neg hi]
          rfl
        · rw [List.flatMap_cons]
          simp only [List.cons_append, List.nil_append]
          rw [List.mapM_cons, List.mapM_cons, hm]
          simp only [evalTerm_coef hr c2, evalTerm_coef hf c1, bind, Except.bind, pure, Except.pure]
        · rw [List.flatMap_cons]
          simp only [List.cons_append, List.nil_append, List.mem_cons]
          rintro y (rfl | rfl | hy)
          · exact l1
          · exact l2
          · exact hfac y hy
        · rw [hfc, hfa, ← hsum]
          simp only [List.map_cons, List.sum_cons, habs, Option.map_some, Option.getD_some]
          ring
        · simp; omega

theorem evalPoly_of {env : Env ℝ} {q : Poly} {m : List (Bool × ℝ)} (h : (q.mapM fun t => do
      let x ← evalTerm env t.2
      pure (t.1, x)) = .ok m) : evalPoly env q = .ok (m.map fun y => if y.1 then y.2 else -y.2).sum := by
  have : (q.mapM fun t => do
      let x ← evalTerm env t.2
      pure (if t.1 then x else -x) : Py (List ℝ)) = .ok (m.map fun y => if y.1 then y.2 else -y.2) := by
    induction q generalizing m with
    | nil => cases h; rfl
    | cons t q ih =>
      rw [List.mapM_cons, bind_ok] at h
      obtain ⟨y, hy, h⟩ := h
      rw [bind_ok] at h
      obtain ⟨m', hm', h⟩ := h
      rw [pure_ok] at h
      subst h
      rw [bind_ok] at hy
      obtain ⟨x, hx, hy⟩ := hy
      rw [pure_ok] at hy
      subst hy
      rw [List.mapM_cons, ih hm', hx]
      rfl
  unfold evalPoly
  rw [this]
  rfl

theorem rdPoly_near (h : A.Rounds u) {c : ℝ} (hc : 1 ≤ c) {e e' : Env ℝ} (he : EnvWithin c e e') {q : Poly} {L R : Nat}
    (hL : ∀ t ∈ q, t.2.factors.length ≤ L) {m : List (Bool × ℝ)} (hm : (q.mapM fun t => do
      let x ← evalTerm e' t.2
      pure (t.1, x)) = .ok m) (hR : m.length ≤ 2 * R) :
    ∃ g, rdPoly A e q = .ok g ∧ |g - (m.map fun y => if y.1 then y.2 else -y.2).sum|
      ≤ (c * (1 + u) ^ (2 * L + 2 * R) - 1) * (m.map fun y => |y.2|).sum := by
  have hrel : RelPy (List.Forall₂ (fun x y : Bool × ℝ => x.1 = y.1 ∧ Within (c * (1 + u) ^ (2 * L + 1)) x.2 y.2))
      (q.mapM fun t => do
        let x ← rdTerm A e t.2
        pure (t.1, x))
      (q.mapM fun t => do
        let x ← evalTerm e' t.2
        pure (t.1, x)) :=
    relPy_mapM_same fun t ht => relPy_bind (rdTerm_near h hc he t.2 (hL t ht)) fun a b hab => ⟨rfl, hab⟩
  rw [hm] at hrel
  obtain ⟨xs, hxs, hxm⟩ := relPy_ok_right hrel
  unfold rdPoly
  rw [hxs]
  cases hxm with
  | nil => exact ⟨0, rfl, by simp⟩
  | @cons x y xs m hxy hrest =>
    obtain ⟨b, x⟩ := x
    obtain ⟨b', y⟩ := y
    obtain ⟨rfl, hw⟩ := hxy
    dsimp only at hw
    refine ⟨_, rfl, ?_⟩
    have hu := h.nonneg
    have hc' : 1 ≤ c * (1 + u) ^ (2 * L + 1) := one_le_mul_of_one_le_of_one_le hc (h.one_le _)
    have hlen := hrest.length_eq
    have key := near_sum h hc' xs m hrest 0 (if b then x else -x) (if b then y else -y) |y| (by
      rw [pow_zero, mul_one]
      unfold Within at hw
      cases b
      · simp only [Bool.false_eq_true, if_false]
        rwa [neg_sub_neg, abs_sub_comm]
      · simpa using hw) (by cases b <;> simp)
    rw [List.map_cons, List.sum_cons, List.map_cons, List.sum_cons]
    refine le_trans key (mul_le_mul_of_nonneg_right ?_ ?_)
    · rw [mul_assoc, ← pow_add]
      simp only [List.length_cons] at hR
      have := mul_le_mul_of_nonneg_left (pow_le_pow_right₀ (show 1 ≤ 1 + u by linarith) (show 2 * L + 1 + (0 + xs.length) ≤ 2 * L + 2 * R by omega)) (show 0 ≤ c by linarith)
      linarith
    · refine add_nonneg (abs_nonneg _) (List.sum_nonneg ?_)
      intro z hz
      obtain ⟨w, -, rfl⟩ := List.mem_map.mp hz
      exact abs_nonneg _

/-- Sums of terms with errors that are part of given sizes. -/
theorem near_sumG (h : A.Rounds u) {c : ℝ} (hc : 1 ≤ c) (l : List ℝ) (m : List (ℝ × ℝ))
    (hl : List.Forall₂ (fun x y => |x - y.1| ≤ (c - 1) * y.2 ∧ |y.1| ≤ y.2) l m) (n : Nat) (s s' G : ℝ)
    (hs : |s - s'| ≤ (c * (1 + u) ^ n - 1) * G) (hG : |s'| ≤ G) :
    |l.foldl A.add s - (s' + (m.map (·.1)).sum)| ≤ (c * (1 + u) ^ (n + l.length) - 1) * (G + (m.map (·.2)).sum) := by
  induction hl generalizing n s s' G with
  | nil => simpa using hs
  | @cons x y l m hxy _ ih =>
    obtain ⟨h1, h2⟩ := hxy
    rw [List.foldl_cons, List.map_cons, List.sum_cons, List.map_cons, List.sum_cons, List.length_cons, show n + (l.length + 1) = (n + 1) + l.length by omega, ← add_assoc s', ← add_assoc G]
    have hu := h.nonneg
    have hy0 : 0 ≤ y.2 := le_trans (abs_nonneg _) h2
    have hcn : c - 1 ≤ c * (1 + u) ^ n - 1 := by
      have := h.one_le n
      nlinarith
    have e0 : |x - y.1| ≤ (c * (1 + u) ^ n - 1) * y.2 := le_trans h1 (mul_le_mul_of_nonneg_right hcn hy0)
    refine ih (n + 1) _ (s' + y.1) (G + y.2) ?_ (le_trans (abs_add_le _ _) (by linarith))
    have e1 : |s + x - (s' + y.1)| ≤ (c * (1 + u) ^ n - 1) * (G + y.2) := by
      rw [show s + x - (s' + y.1) = (s - s') + (x - y.1) by ring]
      refine le_trans (abs_add_le _ _) ?_
      linarith
    have e2 : |s' + y.1| ≤ G + y.2 := le_trans (abs_add_le _ _) (by linarith)
    have e3 : |s + x| ≤ c * (1 + u) ^ n * (G + y.2) := by
      have := abs_add_le (s + x - (s' + y.1)) (s' + y.1)
      rw [sub_add_cancel] at this
      linarith
    have e4 : |A.add s x - (s' + y.1)| ≤ |A.add s x - (s + x)| + |s + x - (s' + y.1)| := by
      have := abs_add_le (A.add s x - (s + x)) (s + x - (s' + y.1))
      rwa [sub_add_sub_cancel] at this
    have e5 : |A.add s x - (s + x)| ≤ u * |s + x| := by
      have := h.add s x
      unfold Within at this
      rwa [add_sub_cancel_left] at this
    have e6 : u * |s + x| ≤ u * (c * (1 + u) ^ n * (G + y.2)) := mul_le_mul_of_nonneg_left e3 hu
    rw [pow_succ]
    linarith

theorem rdDot_near (h : A.Rounds u) {c : ℝ} (hc : 1 ≤ c) (xs ms : List ℝ) (ys : List (ℝ × ℝ)) (R : Nat) (hR : xs.length ≤ R)
    (hl : List.Forall₂ (fun x y => |x - y.1| ≤ (c - 1) * y.2 ∧ |y.1| ≤ y.2) xs ys) :
    |rdDot A xs ms - (List.zipWith (fun y m => m * y.1) ys ms).sum| ≤ (c * (1 + u) ^ R - 1) * (List.zipWith (fun y m => |m| * y.2) ys ms).sum := by
  have hu := h.nonneg
  have hz : ∀ {xs : List ℝ} {ys : List (ℝ × ℝ)}, List.Forall₂ (fun x y => |x - y.1| ≤ (c - 1) * y.2 ∧ |y.1| ≤ y.2) xs ys → ∀ ms : List ℝ,
      List.Forall₂ (fun x y => |x - y.1| ≤ (c * (1 + u) - 1) * y.2 ∧ |y.1| ≤ y.2) (List.zipWith A.mul xs ms)
        (List.zipWith (fun y m => (m * y.1, |m| * y.2)) ys ms) := by
    intro xs ys hl
    induction hl with
    | nil => intro ms; simp
    | @cons x y l l' hxy _ ih =>
      intro ms
      cases ms with
      | nil => simp
      | cons m ms =>
        rw [List.zipWith_cons_cons, List.zipWith_cons_cons]
        refine List.Forall₂.cons ⟨?_, ?_⟩ (ih ms)
        · dsimp only
          obtain ⟨h1, h2⟩ := hxy
          have hm : |A.mul x m - x * m| ≤ u * |x * m| := by
            have := h.mul x m
            unfold Within at this
            rwa [add_sub_cancel_left] at this
          have hm0 := abs_nonneg m
          have hy0 : 0 ≤ y.2 := le_trans (abs_nonneg _) h2
          have e1 : |x| ≤ c * y.2 := by
            have := abs_add_le (x - y.1) y.1
            rw [sub_add_cancel] at this
            linarith
          have e2 : |x * m| ≤ |m| * (c * y.2) := by
            rw [abs_mul, mul_comm]
            exact mul_le_mul_of_nonneg_left e1 hm0
          have e3 : |x * m - m * y.1| ≤ |m| * ((c - 1) * y.2) := by
            rw [show x * m - m * y.1 = m * (x - y.1) by ring, abs_mul]
            exact mul_le_mul_of_nonneg_left h1 hm0
          have e4 : |A.mul x m - m * y.1| ≤ |A.mul x m - x * m| + |x * m - m * y.1| := by
            have := abs_add_le (A.mul x m - x * m) (x * m - m * y.1)
            rwa [sub_add_sub_cancel] at this
          have e5 := mul_le_mul_of_nonneg_left e2 hu
          nlinarith
        · dsimp only
          rw [abs_mul]
          exact mul_le_mul_of_nonneg_left hxy.2 (abs_nonneg m)
  have key := hz hl ms
  have hlen : (List.zipWith A.mul xs ms).length ≤ R := by
    rw [List.length_zipWith]
    omega
  have s1 : (List.zipWith (fun y m => m * y.1) ys ms) = (List.zipWith (fun (y : ℝ × ℝ) (m : ℝ) => (m * y.1, |m| * y.2)) ys ms).map (·.1) := by
    rw [List.map_zipWith]
  have s2 : (List.zipWith (fun y m => |m| * y.2) ys ms) = (List.zipWith (fun (y : ℝ × ℝ) (m : ℝ) => (m * y.1, |m| * y.2)) ys ms).map (·.2) := by
    rw [List.map_zipWith]
  rw [s1, s2]
  unfold rdDot
  generalize List.zipWith A.mul xs ms = l at key hlen
  generalize List.zipWith (fun (y : ℝ × ℝ) (m : ℝ) => (m * y.1, |m| * y.2)) ys ms = m' at key
  cases key with
  | nil => simp
  | @cons x y l m' hxy hlm =>
    dsimp only
    have hc' : 1 ≤ c * (1 + u) := by nlinarith
    have := near_sumG h hc' l m' hlm 0 x y.1 y.2 (by simpa using hxy.1) hxy.2
    rw [List.map_cons, List.sum_cons, List.map_cons, List.sum_cons]
    refine le_trans this ?_
    have hn : 0 ≤ y.2 + (m'.map (·.2)).sum := by
      have : 0 ≤ (m'.map (·.2)).sum := by
        clear this hlen hxy
        induction hlm with
        | nil => simp
        | cons hxy _ ih =>
          rw [List.map_cons, List.sum_cons]
          exact add_nonneg (le_trans (abs_nonneg _) hxy.2) ih
      have := le_trans (abs_nonneg _) hxy.2
      linarith
    refine mul_le_mul_of_nonneg_right ?_ hn
    have : (1 + u) ^ (l.length + 1) ≤ (1 + u) ^ R := pow_le_pow_right₀ (by linarith) (by simpa using hlen)
    rw [zero_add, mul_assoc, ← pow_succ']
    nlinarith

theorem near_div {c d x y x' y' : ℝ} (hc : 1 ≤ c) (hd1 : 1 ≤ d) (hd : d < 2) (h : Within c x y) (h' : Within d x' y') :
    Within (c / (2 - d)) (x / x') (y / y') := by
  rcases eq_or_ne y' 0 with rfl | hy
  · rw [(near_zero hd h').mpr rfl]
    simp [Within]
  have hx : x' ≠ 0 := fun e => hy ((near_zero hd h').mp e)
  have hy0 := abs_pos.mpr hy
  have hx0 := abs_pos.mpr hx
  have hxy : (2 - d) * |y'| ≤ |x'| := by
    have := abs_add_le (y' - x') x'
    rw [sub_add_cancel, abs_sub_comm] at this
    unfold Within at h'
    linarith
  have e1 : |x * y' - y * x'| ≤ (c + d - 2) * (|y| * |y'|) := by
    rw [show x * y' - y * x' = (x - y) * y' + y * (y' - x') by ring]
    refine le_trans (abs_add_le _ _) ?_
    rw [abs_mul, abs_mul, abs_sub_comm y' x']
    have a1 := mul_le_mul_of_nonneg_right h hy0.le
    have a2 := mul_le_mul_of_nonneg_left h' (abs_nonneg y)
    nlinarith
  have hpos : 0 < 2 - d := by linarith
  unfold Within
  rw [show c / (2 - d) - 1 = (c + d - 2) / (2 - d) by field_simp; ring, div_sub_div _ _ hx hy, abs_div, abs_div, abs_mul x' y', mul_comm x' y,
    div_mul_div_comm, div_le_div_iff₀ (by positivity) (by positivity)]
  have hcd : 0 ≤ (c + d - 2) * (|y| * |y'|) := mul_nonneg (by linarith) (by positivity)
  calc |x * y' - y * x'| * ((2 - d) * |y'|) ≤ (c + d - 2) * (|y| * |y'|) * |x'| := by
        refine mul_le_mul e1 hxy (by positivity) hcd
    _ = (c + d - 2) * |y| * (|x'| * |y'|) := by ring

end Verif
