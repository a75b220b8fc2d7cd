import Verif.Model.Jacobian
import Verif.Lemmas.Constrain
import Verif.Lemmas.MeanField
import Mathlib.Algebra.Field.Basic
import Mathlib.Tactic.Ring
/-
Lemmas about `Verif/Model/Jacobian.lean`: the value of the derived text of one product.
-/
set_option linter.unusedSectionVars false
namespace Verif
open Dict

variable {K : Type} [Field K]

/-- The value of a factor. -/
def facVal (P C θ : Str → K) (f : Factor) : K :=
  (match f.var with | .theta => θ f.name | .p => P f.name | .c => C f.name) ^ f.pow

/-- The factor is defined in the network. -/
def FacOk (n : Network) (f : Factor) : Prop :=
  match f.var with | .theta => f.name ∈ n.siteCols | .p => f.name ∈ n.gas | .c => f.name ∈ n.liq

theorem evalFactor_val {o : MFOwner K} {total P C v : Str → K} {env : Env K}
    (he : EnvOk o total P C v env) {f : Factor} (hf : FacOk o.net f) :
    evalFactor env f = .ok (facVal P C (coverage o.net total v) f) := by
  obtain ⟨var, name, pow⟩ := f
  cases var with
  | theta => simp only [evalFactor, bind, Except.bind, dictGet_ok.mpr (he.theta _ hf), facVal]; rfl
  | p => simp only [evalFactor, bind, Except.bind, dictGet_ok.mpr (he.p _ hf), facVal]; rfl
  | c => simp only [evalFactor, bind, Except.bind, dictGet_ok.mpr (he.c _ hf), facVal]; rfl

/-- The value of a factor of a derived text. -/
def pieceVal (kf kr : List K) (P C θ : Str → K) : Piece K → K
  | .num n => n
  | .k fwd i => ((if fwd then kf else kr)[i]?).getD 0
  | .fac f => facVal P C θ f
  | .der n p => θ n ^ p
  | .free t as p => (t - (as.map θ).sum) ^ p

def PieceOk (n : Network) (kf kr : List K) : Piece K → Prop
  | .num _ => True
  | .k fwd i => i < (if fwd then kf else kr).length
  | .fac f => FacOk n f
  | .der x p => x ∈ n.siteCols ∧ 0 ≤ p
  | .free _ as p => (∀ a ∈ as, a ∈ n.siteCols) ∧ 0 ≤ p

variable [DecidableEq K]

theorem pyPow_ok (x : K) {p : Int} (h : 0 ≤ p) : pyPow x p = .ok (x ^ p) := by
  unfold pyPow
  rw [if_neg (fun e => absurd e.2 (not_lt.mpr h))]

theorem evalPiece_val {o : MFOwner K} {total P C v : Str → K} {env : Env K}
    (he : EnvOk o total P C v env) {x : Piece K} (hx : PieceOk o.net env.kf env.kr x) :
    evalPiece env x = .ok (pieceVal env.kf env.kr P C (coverage o.net total v) x) := by
  cases x with
  | num n => rfl
  | k fwd i =>
    have hx' : i < (if fwd then env.kf else env.kr).length := hx
    simp only [evalPiece, pieceVal, List.getElem?_eq_getElem hx', Option.getD_some]
  | fac f => exact evalFactor_val he hx
  | der n p =>
    simp only [evalPiece, bind, Except.bind, dictGet_ok.mpr (he.theta _ hx.1), pyPow_ok _ hx.2]
    rfl
  | free t as p =>
    simp only [evalPiece, bind, Except.bind, mapM_dictGet fun a ha => he.theta a (hx.1 a ha)]
    rw [pyPow_ok _ hx.2]
    rfl

/-- The value of a product. -/
def vals (kf kr : List K) (P C θ : Str → K) (l : List (Piece K)) : K := (l.map (pieceVal kf kr P C θ)).prod

theorem evalProduct {o : MFOwner K} {total P C v : Str → K} {env : Env K}
    (he : EnvOk o total P C v env) {l : List (Piece K)} (hl : ∀ x ∈ l, PieceOk o.net env.kf env.kr x) :
    l.mapM (evalPiece env) = .ok (l.map (pieceVal env.kf env.kr P C (coverage o.net total v))) :=
  mapM_ok_map fun x hx => evalPiece_val he (hl x hx)

omit [DecidableEq K] in
theorem vals_append (kf kr : List K) (P C θ : Str → K) (l m : List (Piece K)) :
    vals kf kr P C θ (l ++ m) = vals kf kr P C θ l * vals kf kr P C θ m := by
  simp [vals]

omit [DecidableEq K] in
theorem vals_cons (kf kr : List K) (P C θ : Str → K) (x : Piece K) (m : List (Piece K)) :
    vals kf kr P C θ (x :: m) = pieceVal kf kr P C θ x * vals kf kr P C θ m := by
  simp [vals]

/-- A piece of an original term. -/
def Piece.orig : Piece K → Prop
  | .der _ _ => False
  | .free _ _ _ => False
  | _ => True

omit [DecidableEq K] in
theorem vals_congr (kf kr : List K) (P C θ θ' : Str → K) (b s : Str) (hθ : ∀ x, x ≠ b → x ≠ s → θ' x = θ x)
    (l : List (Piece K)) (ho : ∀ x ∈ l, x.orig) (hb : ∀ x ∈ l, Piece.isTheta b x = false)
    (hs : ∀ x ∈ l, Piece.isTheta s x = false) : vals kf kr P C θ' l = vals kf kr P C θ l := by
  unfold vals
  congr 1
  apply List.map_congr_left
  intro x hx
  have h1 := hb x hx
  have h2 := hs x hx
  cases x with
  | num n => rfl
  | k fwd i => rfl
  | fac f =>
    obtain ⟨var, name, pow⟩ := f
    cases var with
    | theta =>
      simp only [Piece.isTheta, true_and, decide_eq_false_iff_not] at h1 h2
      simp only [pieceVal, facVal, hθ name h1 h2]
    | p => rfl
    | c => rfl
  | der => exact absurd (ho _ hx) (by simp [Piece.orig])
  | free => exact absurd (ho _ hx) (by simp [Piece.orig])

omit [Field K] [DecidableEq K] in
theorem splitLast_none {name : Str} {l : List (Piece K)} (h : ∀ x ∈ l, Piece.isTheta name x = false) :
    splitLast name l = none := by
  induction l with
  | nil => rfl
  | cons x l ih =>
    unfold splitLast
    rw [ih fun y hy => h y (by simp [hy])]
    have := h x (by simp)
    cases x <;> simp_all [Piece.isTheta]

omit [Field K] [DecidableEq K] in
theorem splitLast_some {name : Str} (pre post : List (Piece K)) (p : Nat)
    (h : ∀ x ∈ post, Piece.isTheta name x = false) :
    splitLast name (pre ++ .fac ⟨.theta, name, p⟩ :: post) = some (pre, p, post) := by
  induction pre with
  | nil =>
    rw [List.nil_append]
    unfold splitLast
    rw [splitLast_none h]
    simp
  | cons x pre ih =>
    rw [List.cons_append]
    conv_lhs => unfold splitLast
    rw [ih]

omit [Field K] [DecidableEq K] in
theorem isTheta_split {name : Str} {l : List (Piece K)} (h : l.any (Piece.isTheta name) = true)
    (h1 : l.countP (Piece.isTheta name) ≤ 1) :
    ∃ pre p post, l = pre ++ .fac ⟨.theta, name, p⟩ :: post ∧ (∀ x ∈ pre ++ post, Piece.isTheta name x = false) := by
  obtain ⟨x, hx, ht⟩ := List.any_eq_true.mp h
  obtain ⟨pre, post, rfl⟩ := List.append_of_mem hx
  cases x with
  | fac f =>
    obtain ⟨var, nm, p⟩ := f
    simp only [Piece.isTheta, decide_eq_true_eq] at ht
    obtain ⟨rfl, rfl⟩ := ht
    refine ⟨pre, p, post, rfl, ?_⟩
    rw [List.countP_append, List.countP_cons] at h1
    simp only [Piece.isTheta, true_and, decide_true, if_true] at h1
    have h2 : pre.countP (Piece.isTheta nm) = 0 := by omega
    have h3 : post.countP (Piece.isTheta nm) = 0 := by omega
    rw [List.countP_eq_zero] at h2 h3
    intro x hx
    rcases List.mem_append.mp hx with h | h
    · simpa using h2 x h
    · simpa using h3 x h
  | num => simp [Piece.isTheta] at ht
  | k => simp [Piece.isTheta] at ht
  | der => simp [Piece.isTheta] at ht
  | free => simp [Piece.isTheta] at ht

omit [DecidableEq K] in
theorem derivTerm_ok (n : Network) (kf kr : List K) (P C θ : Str → K) (name : Str) (pre post : List (Piece K)) (p : Nat)
    (hp1 : 1 ≤ p) (hp9 : p ≤ 9) (hpost : ∀ x ∈ post, Piece.isTheta name x = false) (hname : name ∈ n.siteCols)
    (hok : ∀ x ∈ pre ++ post, PieceOk n kf kr x) :
    ∃ d, derivTerm name (pre ++ .fac ⟨.theta, name, p⟩ :: post) = .ok d ∧
      vals kf kr P C θ d = (p : K) * θ name ^ (p - 1) * vals kf kr P C θ (pre ++ post) ∧
      (∀ x ∈ d, PieceOk n kf kr x) := by
  have hs : regexSplit name (pre ++ .fac ⟨.theta, name, p⟩ :: post) = .ok (pre, p, post) := by
    unfold regexSplit
    rw [splitLast_some pre post p hpost]
    simp only
    rw [if_pos (by omega)]
  unfold derivTerm
  rw [hs]
  simp only [bind, Except.bind, pure, Except.pure]
  by_cases h1 : p = 1
  · subst h1
    rw [if_pos rfl]
    refine ⟨_, rfl, ?_, ?_⟩
    · by_cases h : (pre ++ post).isEmpty
      · rw [if_pos h, List.isEmpty_iff.mp h]; simp [vals, pieceVal]
      · rw [if_neg h]; simp
    · intro x hx
      by_cases h : (pre ++ post).isEmpty
      · rw [if_pos h, List.mem_singleton] at hx; subst hx; trivial
      · rw [if_neg h] at hx; exact hok x hx
  · rw [if_neg h1]
    refine ⟨_, rfl, ?_, ?_⟩
    · have hz : ((p : Int) - 1) = ((p - 1 : Nat) : Int) := by omega
      rw [List.cons_append, vals_cons, vals_append, hz]
      simp only [vals, pieceVal, zpow_natCast, List.map_cons, List.map_nil, List.prod_cons, List.prod_nil]
      ring
    · intro x hx
      rw [List.cons_append, List.mem_cons, List.mem_append, List.mem_singleton] at hx
      rcases hx with rfl | hx | rfl
      · trivial
      · exact hok x hx
      · exact ⟨hname, by omega⟩

omit [DecidableEq K] in
theorem vals_subst (n : Network) (kf kr : List K) (P C θ : Str → K) (s : Str) (t : K) (as : List Str)
    (hθ : θ s = t - (as.map θ).sum) (has : ∀ a ∈ as, a ∈ n.siteCols) (l : List (Piece K))
    (hok : ∀ x ∈ l, PieceOk n kf kr x) :
    vals kf kr P C θ (l.map (substFree s t as)) = vals kf kr P C θ l ∧
      ∀ x ∈ l.map (substFree s t as), PieceOk n kf kr x := by
  constructor
  · unfold vals
    rw [List.map_map]
    congr 1
    apply List.map_congr_left
    intro x _
    cases x with
    | fac f =>
      simp only [Function.comp, substFree]
      split
      · rename_i h
        obtain ⟨var, name, pow⟩ := f
        obtain ⟨rfl, rfl⟩ := h
        simp only [pieceVal, facVal, zpow_natCast, hθ]
      · rfl
    | der x p =>
      simp only [Function.comp, substFree]
      split
      · rename_i h; subst h; simp only [pieceVal, hθ]
      · rfl
    | _ => rfl
  · intro x hx
    obtain ⟨y, hy, rfl⟩ := List.mem_map.mp hx
    have h := hok y hy
    cases y with
    | fac f =>
      simp only [substFree]
      split
      · exact ⟨has, by omega⟩
      · exact h
    | der x p =>
      simp only [substFree]
      split
      · exact ⟨has, h.2⟩
      · exact h
    | _ => exact h

/-- A product text in which the derivation finds its way: all factors defined, no coverage twice,
powers of coverages with one digit. -/
structure TextOk (n : Network) (kf kr : List K) (l : List (Piece K)) : Prop where
  ok : ∀ x ∈ l, PieceOk n kf kr x
  orig : ∀ x ∈ l, x.orig
  once : ∀ name, l.countP (Piece.isTheta name) ≤ 1
  pow : ∀ x ∈ l, ∀ name p, x = .fac ⟨.theta, name, p⟩ → 1 ≤ p ∧ p ≤ 9

/-- The value of the derived text: the product rule, with both products written. -/
theorem totalDeriv_ok {o : MFOwner K} {total P C v : Str → K} (hr : Ready o total P C) (kf kr : List K)
    {b s : Str} (hb : b ∈ o.net.ads) (hs : s ∈ o.net.sites) (hon : OnSite b s) {l : List (Piece K)}
    (hl : TextOk o.net kf kr l) :
    ∃ (L : List (Bool × List (Piece K))) (R : K) (p q : Nat), totalDeriv o b l = .ok L ∧
      (∀ y ∈ L, ∀ x ∈ y.2, PieceOk o.net kf kr x) ∧
      (∀ θ', (∀ x, x ≠ b → x ≠ s → θ' x = coverage o.net total v x) →
        vals kf kr P C θ' l = R * θ' b ^ p * θ' s ^ q) ∧
      (¬ (l.any (Piece.isTheta s) = true ∧ l.any (Piece.isTheta b) = true) → ∃ sgn x, L = [(sgn, x)] ∧
        (if sgn then vals kf kr P C (coverage o.net total v) x else - vals kf kr P C (coverage o.net total v) x)
          = R * (p * coverage o.net total v b ^ (p - 1) * coverage o.net total v s ^ q)
            - R * (q * coverage o.net total v b ^ p * coverage o.net total v s ^ (q - 1))) ∧
      ((l.any (Piece.isTheta s) = true ∧ l.any (Piece.isTheta b) = true) → ∃ x y, L = [(true, x), (false, y)] ∧
        vals kf kr P C (coverage o.net total v) x
          = R * (p * coverage o.net total v b ^ (p - 1) * coverage o.net total v s ^ q) ∧
        vals kf kr P C (coverage o.net total v) y
          = R * (q * coverage o.net total v b ^ p * coverage o.net total v s ^ (q - 1))) := by
  obtain ⟨cls, hc1, hc2⟩ := classifyAds_ok hr.parse
  have hsb : s ∉ o.net.ads := sites_disjoint hr.parse s hs
  have hne : b ≠ s := fun e => hsb (e ▸ hb)
  have hbc : b ∈ o.net.siteCols := List.mem_append_right _ hb
  have hsc : s ∈ o.net.siteCols := List.mem_append_left _ hs
  generalize hθ : coverage o.net total v = θ
  have hfree : θ s = total s - ((o.net.ads.filter (fun a => OnSite a s)).map θ).sum := by
    rw [← hθ]
    conv_lhs => unfold coverage
    rw [if_neg hsb]
    congr 2
    apply List.map_congr_left
    intro a ha
    unfold coverage
    rw [if_pos (List.mem_filter.mp ha).1]
  have has : ∀ a ∈ o.net.ads.filter (fun a => OnSite a s), a ∈ o.net.siteCols :=
    fun a ha => List.mem_append_right _ (List.mem_filter.mp ha).1
  have hunf : totalDeriv o b l = (if l.any (Piece.isTheta s) ∧ l.any (Piece.isTheta b) then do
      let m ← regexSplit b l
      let sitePart := m.1 ++ m.2.2
      let adsPart : List (Piece K) := [.fac ⟨.theta, b, m.2.1⟩]
      let d1 ← derivTerm b adsPart
      let d2 ← derivTerm s sitePart
      pure [(true, d1 ++ sitePart), (false, d2.map (substFree s (total s) (o.net.ads.filter (fun a => OnSite a s))) ++ adsPart)]
    else if l.any (Piece.isTheta s) then do
      let d ← derivTerm s l
      pure [(false, d.map (substFree s (total s) (o.net.ads.filter (fun a => OnSite a s))))]
    else if l.any (Piece.isTheta b) then do
      let d ← derivTerm b l
      pure [(true, d)]
    else pure [(true, [.num 0])]) := by
    unfold totalDeriv
    rw [if_neg (by simpa using hb), show siteNameOf b = .ok s from hon]
    have h1 := dictGet_ok.mpr (hr.totals s hs)
    have h2 : dictGet cls s = .ok (o.net.ads.filter (fun a => OnSite a s)) :=
      dictGet_ok.mpr (by rw [hc2, if_pos hs])
    simp only [bind, Except.bind, h1, hc1, h2]
  rw [hunf]
  by_cases has1 : l.any (Piece.isTheta s) = true
  · by_cases hbs : l.any (Piece.isTheta b) = true
    · -- both
      rw [if_pos ⟨has1, hbs⟩]
      obtain ⟨pre, p, post, rfl, hnb⟩ := isTheta_split hbs (hl.once b)
      have hpw := hl.pow (.fac ⟨.theta, b, p⟩) (by simp) b p rfl
      have hspl : regexSplit b (pre ++ .fac ⟨.theta, b, p⟩ :: post) = .ok (pre, p, post) := by
        unfold regexSplit
        rw [splitLast_some pre post p fun x hx => hnb x (by simp [hx])]
        simp only
        rw [if_pos (by omega)]
      have hs2 : (pre ++ post).any (Piece.isTheta s) = true := by
        rw [List.any_append, List.any_cons] at has1
        have : Piece.isTheta s (.fac ⟨.theta, b, p⟩ : Piece K) = false := by
          simp [Piece.isTheta, hne]
        rw [this, Bool.false_or] at has1
        rw [List.any_append, has1]
      have hs3 : (pre ++ post).countP (Piece.isTheta s) ≤ 1 := by
        have := hl.once s
        rw [List.countP_append, List.countP_cons] at this
        rw [List.countP_append]
        omega
      obtain ⟨pre', q, post', hsp, hns⟩ := isTheta_split hs2 hs3
      have hsub : ∀ x ∈ pre ++ post, x ∈ pre ++ .fac ⟨.theta, b, p⟩ :: post := by
        intro x hx
        rcases List.mem_append.mp hx with h | h <;> simp [h]
      have hqw := hl.pow (.fac ⟨.theta, s, q⟩) (hsub _ (by rw [hsp]; simp)) s q rfl
      have hsub' : ∀ x ∈ pre' ++ post', x ∈ pre ++ post := by
        intro x hx
        rw [hsp]
        rcases List.mem_append.mp hx with h | h <;> simp [h]
      have hokp : ∀ x ∈ pre ++ post, PieceOk o.net kf kr x := fun x hx => hl.ok x (hsub x hx)
      obtain ⟨d1, e1, v1, k1⟩ := derivTerm_ok o.net kf kr P C θ b [] [] p hpw.1 hpw.2 (by simp) hbc (by simp)
      obtain ⟨d2, e2, v2, k2⟩ := derivTerm_ok o.net kf kr P C θ s pre' post' q hqw.1 hqw.2
        (fun x hx => hns x (by simp [hx])) hsc (fun x hx => hokp x (hsub' x hx))
      rw [List.nil_append] at e1
      obtain ⟨v3, k3⟩ := vals_subst o.net kf kr P C θ s (total s) _ hfree has d2 k2
      refine ⟨[(true, d1 ++ (pre' ++ .fac ⟨.theta, s, q⟩ :: post')), (false, d2.map (substFree s (total s) (o.net.ads.filter (fun a => OnSite a s))) ++ [.fac ⟨.theta, b, p⟩])],
        vals kf kr P C θ (pre' ++ post'), p, q, ?_, ?_, ?_, ?_, ?_⟩
      · simp only [bind, Except.bind, hspl, e1, hsp, e2]; rfl
      · intro y hy x hx
        simp only [List.mem_cons, List.not_mem_nil, or_false] at hy
        rcases hy with rfl | rfl
        · rcases List.mem_append.mp hx with h | h
          · exact k1 x h
          · exact hokp x (by rw [hsp]; exact h)
        · rcases List.mem_append.mp hx with h | h
          · exact k3 x h
          · rw [List.mem_singleton] at h; subst h; exact hbc
      · intro θ' h'
        have hR : vals kf kr P C θ' (pre' ++ post') = vals kf kr P C θ (pre' ++ post') :=
          vals_congr kf kr P C θ θ' b s h' _ (fun x hx => hl.orig x (hsub x (hsub' x hx)))
            (fun x hx => hnb x (hsub' x hx)) hns
        rw [← hR, vals_append, vals_cons]
        have h2 : vals kf kr P C θ' pre * vals kf kr P C θ' post
            = θ' s ^ q * vals kf kr P C θ' (pre' ++ post') := by
          rw [← vals_append, hsp, vals_append, vals_cons, vals_append]
          simp only [pieceVal, facVal]; ring
        simp only [pieceVal, facVal]
        linear_combination θ' b ^ p * h2
      · intro hno; exact absurd ⟨has1, hbs⟩ hno
      · intro _
        refine ⟨_, _, rfl, ?_, ?_⟩
        · rw [vals_append, v1]
          simp only [vals, List.append_nil, List.map_nil, List.prod_nil, List.map_append, List.map_cons,
            List.prod_append, List.prod_cons, pieceVal, facVal]
          ring
        · rw [vals_append, v3, v2]
          simp only [vals, List.map_cons, List.map_nil, List.prod_cons, List.prod_nil, pieceVal, facVal]
          ring
    · -- site only
      rw [if_neg (fun h => hbs h.2), if_pos has1]
      obtain ⟨pre, q, post, rfl, hns⟩ := isTheta_split has1 (hl.once s)
      have hpw := hl.pow (.fac ⟨.theta, s, q⟩) (by simp) s q rfl
      have hsub : ∀ x ∈ pre ++ post, x ∈ pre ++ .fac ⟨.theta, s, q⟩ :: post := by
        intro x hx
        rcases List.mem_append.mp hx with h | h <;> simp [h]
      have hnb : ∀ x ∈ pre ++ post, Piece.isTheta b x = false := by
        intro x hx
        have := hbs
        simp only [List.any_eq_true, not_exists, not_and, Bool.not_eq_true] at this
        exact this x (hsub x hx)
      obtain ⟨d, e, w, k⟩ := derivTerm_ok o.net kf kr P C θ s pre post q hpw.1 hpw.2
        (fun x hx => hns x (by simp [hx])) hsc (fun x hx => hl.ok x (hsub x hx))
      obtain ⟨v3, k3⟩ := vals_subst o.net kf kr P C θ s (total s) _ hfree has d k
      refine ⟨[(false, d.map (substFree s (total s) (o.net.ads.filter (fun a => OnSite a s))))], vals kf kr P C θ (pre ++ post), 0, q, ?_, ?_, ?_, ?_, ?_⟩
      · simp only [bind, Except.bind, e]; rfl
      · intro y hy x hx
        rw [List.mem_singleton] at hy
        subst hy
        exact k3 x hx
      · intro θ' h'
        rw [← vals_congr kf kr P C θ θ' b s h' _ (fun x hx => hl.orig x (hsub x hx)) hnb hns,
          vals_append, vals_cons, vals_append]
        simp only [pieceVal, facVal]; ring
      · intro _
        refine ⟨_, _, rfl, ?_⟩
        rw [v3, w]; simp; ring
      · intro hno; exact absurd hno.2 hbs
  · rw [if_neg (fun h => has1 h.1), if_neg has1]
    by_cases hbs : l.any (Piece.isTheta b) = true
    · rw [if_pos hbs]
      obtain ⟨pre, p, post, rfl, hnb⟩ := isTheta_split hbs (hl.once b)
      have hpw := hl.pow (.fac ⟨.theta, b, p⟩) (by simp) b p rfl
      have hsub : ∀ x ∈ pre ++ post, x ∈ pre ++ .fac ⟨.theta, b, p⟩ :: post := by
        intro x hx
        rcases List.mem_append.mp hx with h | h <;> simp [h]
      have hns : ∀ x ∈ pre ++ post, Piece.isTheta s x = false := by
        intro x hx
        have := has1
        simp only [List.any_eq_true, not_exists, not_and, Bool.not_eq_true] at this
        exact this x (hsub x hx)
      obtain ⟨d, e, w, k⟩ := derivTerm_ok o.net kf kr P C θ b pre post p hpw.1 hpw.2
        (fun x hx => hnb x (by simp [hx])) hbc (fun x hx => hl.ok x (hsub x hx))
      refine ⟨[(true, d)], vals kf kr P C θ (pre ++ post), p, 0, ?_, ?_, ?_, ?_, ?_⟩
      · simp only [bind, Except.bind, e]; rfl
      · intro y hy x hx
        rw [List.mem_singleton] at hy
        subst hy
        exact k x hx
      · intro θ' h'
        rw [← vals_congr kf kr P C θ θ' b s h' _ (fun x hx => hl.orig x (hsub x hx)) hnb hns,
          vals_append, vals_cons, vals_append]
        simp only [pieceVal, facVal]; ring
      · intro _
        refine ⟨_, _, rfl, ?_⟩
        rw [if_pos rfl, w]; simp; ring
      · intro hno; exact absurd hno.1 has1
    · rw [if_neg hbs]
      refine ⟨[(true, [.num 0])], vals kf kr P C θ l, 0, 0, rfl, ?_, ?_, ?_, ?_⟩
      · intro y hy x hx
        rw [List.mem_singleton] at hy
        subst hy
        rw [List.mem_singleton] at hx
        subst hx
        trivial
      · intro θ' h'
        simp only [List.any_eq_true, not_exists, not_and, Bool.not_eq_true] at has1 hbs
        rw [vals_congr kf kr P C θ θ' b s h' l hl.orig hbs has1]
        simp
      · intro _
        exact ⟨_, _, rfl, by simp [vals, pieceVal]⟩
      · intro hno; exact absurd hno.1 has1

end Verif
