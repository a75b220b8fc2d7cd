import Verif.Lemmas.Jacobian
import Verif.Props.MeanField
import Mathlib.Analysis.Calculus.Deriv.Pow
import Mathlib.Analysis.Calculus.Deriv.Add
import Mathlib.Analysis.Calculus.Deriv.Mul
/-
Property C28: the analytical Jacobian.
-/
namespace Verif
open Dict
set_option linter.unusedSectionVars false

/-! ## C28 -/

/-- The adsorbate `b` stands in the state together with its own empty site `s`. -/
def BothIn (b s : Str) (fs : List Formula) : Prop :=
  (∃ f ∈ fs, f.speciesSite = b) ∧ ∃ f ∈ fs, f.speciesSite = s

/-- A state with every species once and coefficients from one to nine. -/
def SimpleState (fs : List Formula) : Prop :=
  (fs.map (·.speciesSite)).Nodup ∧ ∀ f ∈ fs, 1 ≤ f.stoich ∧ f.stoich ≤ 9

theorem mapM_cons_ok {α β : Type} {f : α → Py β} {a : α} {l : List α} {b : β} {bs : List β}
    (h1 : f a = .ok b) (h2 : l.mapM f = .ok bs) : (a :: l).mapM f = .ok (b :: bs) := by
  rw [List.mapM_cons, h1, h2]; rfl

theorem mapM_app_ok {α β : Type} {f : α → Py β} {l m : List α} {bs cs : List β}
    (h1 : l.mapM f = .ok bs) (h2 : m.mapM f = .ok cs) : (l ++ m).mapM f = .ok (bs ++ cs) := by
  rw [List.mapM_append, h1, h2]; rfl

section
variable {K : Type} [Field K]

theorem facOk_of {o : MFOwner K} {total P C : Str → K} (hr : Ready o total P C) {f : Formula}
    (hf : OccursIn o.rxns f) (h1 : specKind f.species f.site ≠ .ts)
    (h2 : specKind f.species f.site = .empty → f.speciesSite = str! "*_" ++ f.site)
    (h3 : (specKind f.species f.site = .gas ∨ specKind f.species f.site = .liquid) → '*' ∉ f.speciesSite) :
    FacOk o.net (factorOf f) ∧ (factorOf f).name = f.speciesSite ∧ (factorOf f).pow = f.stoich := by
  obtain ⟨l1, l2, -⟩ := listed_iff hr.parse hf
  have once := C08_listed_exactly_once _ _ hr.parse f hf
  rw [factorOf_eq]
  have hshape : ∀ a b c d : Factor, a = ⟨.theta, f.speciesSite, f.stoich⟩ → b = ⟨.p, f.speciesSite, f.stoich⟩ →
      c = ⟨.c, f.speciesSite, f.stoich⟩ → d = ⟨.theta, f.speciesSite, f.stoich⟩ →
      (if '*' ∈ f.speciesSite then a else if f.site = ['g'] then b else if f.site = ['l'] then c else d).name
        = f.speciesSite ∧
      (if '*' ∈ f.speciesSite then a else if f.site = ['g'] then b else if f.site = ['l'] then c else d).pow
        = f.stoich := by
    rintro a b c d rfl rfl rfl rfl
    split
    · exact ⟨rfl, rfl⟩
    · split
      · exact ⟨rfl, rfl⟩
      · split <;> exact ⟨rfl, rfl⟩
  refine ⟨?_, hshape _ _ _ _ rfl rfl rfl rfl⟩
  by_cases hg : f.site = ['g']
  · have hk : specKind f.species f.site = .gas := by simp [specKind, hg]
    rw [if_neg (h3 (Or.inl hk)), if_pos hg]
    exact (once .gas).mpr ⟨hk, by decide⟩
  · by_cases hl : f.site = ['l']
    · have hk : specKind f.species f.site = .liquid := by simp [specKind, hl]
      rw [if_neg (h3 (Or.inr hk)), if_neg hg, if_pos hl]
      exact (once .liquid).mpr ⟨hk, by decide⟩
    · rw [if_neg hg, if_neg hl, ite_self]
      show f.speciesSite ∈ o.net.siteCols
      cases hk : specKind f.species f.site with
      | gas => simp only [specKind, hg, hl, if_false] at hk; split at hk <;> [cases hk; (split at hk <;> cases hk)]
      | liquid => simp only [specKind, hg, hl, if_false] at hk; split at hk <;> [cases hk; (split at hk <;> cases hk)]
      | ts => exact absurd hk h1
      | ads => exact l2 hk
      | empty =>
        unfold Network.siteCols
        rw [List.mem_append, C08_site_names _ _ hr.parse]
        exact Or.inl ⟨f, hf, hg, hl, h2 hk⟩

theorem countP_le_one {α : Type} {l : List Formula} (g : Formula → Piece α) (p : Piece α → Bool) (name : Str)
    (hg : ∀ f ∈ l, p (g f) = true → f.speciesSite = name) (hn : (l.map (·.speciesSite)).Nodup) :
    (l.map g).countP p ≤ 1 := by
  induction l with
  | nil => simp
  | cons f l ih =>
    rw [List.map_cons, List.nodup_cons] at hn
    rw [List.map_cons, List.countP_cons]
    by_cases hf : p (g f) = true
    · have hz : (l.map g).countP p = 0 := by
        rw [List.countP_eq_zero]
        intro x hx hpx
        obtain ⟨f', hf', rfl⟩ := List.mem_map.mp hx
        apply hn.1
        rw [hg f (by simp) hf, ← hg f' (by simp [hf']) hpx]
        exact List.mem_map_of_mem hf'
      rw [hz]; split <;> omega
    · rw [if_neg hf]
      exact ih (fun f' hf' => hg f' (by simp [hf'])) hn.2

/-- The text of the term of an end state. -/
theorem textOk_of {o : MFOwner K} {total P C : Str → K} (hr : Ready o total P C) (kf kr : List K)
    {states : List (List Formula)} (hc : RateClean states) {fs : List Formula}
    (hfs : states.head? = some fs ∨ states.getLast? = some fs) (hocc : ∀ f ∈ fs, OccursIn o.rxns f)
    (hsim : SimpleState fs) (n i : Nat) (fwd : Bool) (hi : i < (if fwd then kf else kr).length) :
    TextOk o.net kf kr (termPieces ⟨n, fwd, i, fs.map factorOf⟩) ∧
      ∀ name, name ∈ o.net.siteCols → ((termPieces (K := K) ⟨n, fwd, i, fs.map factorOf⟩).any (Piece.isTheta name) = true
        → ∃ f ∈ fs, f.speciesSite = name) := by
  have fac := fun f hf => facOk_of hr (hocc f hf) (hc.1.1 fs hfs f hf).1 (hc.1.2 fs hfs f hf) (hc.2 fs hfs f hf)
  have hth : ∀ name, ∀ f ∈ fs, Piece.isTheta name (.fac (factorOf f) : Piece K) = true → f.speciesSite = name := by
    intro name f hf h
    simp only [Piece.isTheta, decide_eq_true_eq] at h
    rw [← (fac f hf).2.1]; exact h.2
  have hmem : ∀ x, x ∈ termPieces (K := K) ⟨n, fwd, i, fs.map factorOf⟩ →
      x = .num n ∨ x = .k fwd i ∨ ∃ f ∈ fs, x = .fac (factorOf f) := by
    intro x hx
    unfold termPieces at hx
    rw [List.mem_append, List.mem_cons] at hx
    rcases hx with hx | hx | hx
    · split at hx
      · simp at hx
      · exact Or.inl (by simpa using hx)
    · exact Or.inr (Or.inl hx)
    · simp only [List.map_map, List.mem_map, Function.comp] at hx
      obtain ⟨f, hf, rfl⟩ := hx
      exact Or.inr (Or.inr ⟨f, hf, rfl⟩)
  refine ⟨⟨?_, ?_, ?_, ?_⟩, ?_⟩
  · intro x hx
    rcases hmem x hx with rfl | rfl | ⟨f, hf, rfl⟩
    · trivial
    · exact hi
    · exact (fac f hf).1
  · intro x hx
    rcases hmem x hx with rfl | rfl | ⟨f, hf, rfl⟩ <;> trivial
  · intro name
    unfold termPieces
    rw [List.countP_append, List.countP_cons]
    have h1 : (if n = 1 then [] else [Piece.num n] : List (Piece K)).countP (Piece.isTheta name) = 0 := by
      split <;> simp [Piece.isTheta]
    simp only [h1, Piece.isTheta, Bool.false_eq_true, if_false, Nat.zero_add, Nat.add_zero, List.map_map]
    exact countP_le_one (fun f => .fac (factorOf f)) _ name (hth name) hsim.1
  · intro x hx name p e
    rcases hmem x hx with rfl | rfl | ⟨f, hf, rfl⟩
    · cases e
    · cases e
    · have : (factorOf f).pow = p := by
        have := Piece.fac.inj e
        rw [this]
      rw [← this, (fac f hf).2.2]
      exact hsim.2 f hf
  · intro name _ h
    obtain ⟨x, hx, ht⟩ := List.any_eq_true.mp h
    rcases hmem x hx with rfl | rfl | ⟨f, hf, rfl⟩
    · simp [Piece.isTheta] at ht
    · simp [Piece.isTheta] at ht
    · exact ⟨f, hf, hth name f hf ht⟩

/-- The terms of the equation of an adsorbate. -/
theorem adsorbateDtheta_terms {o : MFOwner K} (h : parseNetwork o.rxns = .ok o.net) {a : Str} (ha : a ∈ o.net.ads) :
    ∃ q, adsorbateDtheta o a = .ok q ∧ ∀ t ∈ q, ∃ (i : Nat) (hi : i < o.rxns.length) (states : List (List Formula))
      (is fs : List Formula) (n : Nat), eqnFormulas o.rxns[i] = .ok states ∧ o.net.rxns[i]? = some states ∧
      states.head? = some is ∧ states.getLast? = some fs ∧
      (∀ f ∈ is, OccursIn o.rxns f) ∧ (∀ f ∈ fs, OccursIn o.rxns f) ∧
      ((t.2 = ⟨n, true, o.rxns.idxOf o.rxns[i], is.map factorOf⟩ ∧ (t.1 = false → ∃ f ∈ is, f.speciesSite = a)) ∨
       (t.2 = ⟨n, false, o.rxns.idxOf o.rxns[i], fs.map factorOf⟩ ∧ (t.1 = false →
         (∀ f ∈ is, f.speciesSite ≠ a) ∧ ∃ gs ∈ states, ∃ f ∈ gs, f.speciesSite = a))) := by
  have single : ∀ i (hi : i < o.rxns.length), ∃ x, elementaryDtheta o a o.rxns[i] = .ok x ∧
      ∀ inc dec, x = some (inc, dec) → ∀ t ∈ [(true, inc), (false, dec)],
       ∃ (states : List (List Formula)) (is fs : List Formula) (n : Nat), eqnFormulas o.rxns[i] = .ok states ∧
        o.net.rxns[i]? = some states ∧ states.head? = some is ∧ states.getLast? = some fs ∧
      (∀ f ∈ is, OccursIn o.rxns f) ∧ (∀ f ∈ fs, OccursIn o.rxns f) ∧
      ((t.2 = ⟨n, true, o.rxns.idxOf o.rxns[i], is.map factorOf⟩ ∧ (t.1 = false → ∃ f ∈ is, f.speciesSite = a)) ∨
       (t.2 = ⟨n, false, o.rxns.idxOf o.rxns[i], fs.map factorOf⟩ ∧ (t.1 = false →
         (∀ f ∈ is, f.speciesSite ≠ a) ∧ ∃ gs ∈ states, ∃ f ∈ gs, f.speciesSite = a))) := by
    intro i hi
    obtain ⟨st, is, fs, e1, e2, e3, e4, e5, o1, o2⟩ := states_ok h hi
    unfold elementaryDtheta
    rw [if_neg (by simpa using ha), e1]
    simp only [bind, Except.bind]
    have hfind : ∀ (st : List (List Formula)) j n, findAds a st = some (j, n) →
        ∃ gs ∈ st, ∃ f ∈ gs, f.speciesSite = a := by
      intro st
      induction st with
      | nil => intro j n h; cases h
      | cons gs st ih =>
        intro j n h
        unfold findAds at h
        cases hf : gs.find? (·.speciesSite = a) with
        | some f => exact ⟨gs, by simp, f, List.mem_of_find?_eq_some hf, by simpa using List.find?_some hf⟩
        | none =>
          rw [hf] at h
          cases hr : findAds a st with
          | none => rw [hr] at h; cases h
          | some y =>
            obtain ⟨g, hg, r⟩ := ih y.1 y.2 hr
            exact ⟨g, by simp [hg], r⟩
    cases hfa : findAds a st with
    | none => exact ⟨none, rfl, fun _ _ e => (nomatch e)⟩
    | some x =>
      obtain ⟨j, n⟩ := x
      simp only [rateTerms_ok h hi e1 e4 e5]
      cases st with
      | nil => cases e4
      | cons s0 rest =>
      have hs0 : s0 = is := by simpa using e4
      cases j with
      | zero =>
        refine ⟨_, rfl, ?_⟩
        intro inc dec e t ht
        cases e
        refine ⟨_, is, fs, n, rfl, e2, e4, e5, o1, o2, ?_⟩
        simp only [List.mem_cons, List.not_mem_nil, or_false] at ht
        rcases ht with rfl | rfl
        · exact Or.inr ⟨rfl, fun h => (nomatch h)⟩
        · refine Or.inl ⟨rfl, fun _ => ?_⟩
          unfold findAds at hfa
          cases hf : s0.find? (·.speciesSite = a) with
          | some f => exact ⟨f, hs0 ▸ List.mem_of_find?_eq_some hf, by simpa using List.find?_some hf⟩
          | none =>
            rw [hf] at hfa
            cases hr : findAds a rest with
            | none => rw [hr] at hfa; cases hfa
            | some y => rw [hr] at hfa; simp at hfa
      | succ j =>
        refine ⟨_, rfl, ?_⟩
        intro inc dec e t ht
        cases e
        refine ⟨_, is, fs, n, rfl, e2, e4, e5, o1, o2, ?_⟩
        simp only [List.mem_cons, List.not_mem_nil, or_false] at ht
        rcases ht with rfl | rfl
        · exact Or.inl ⟨rfl, fun h => (nomatch h)⟩
        · refine Or.inr ⟨rfl, fun _ => ⟨?_, hfind _ _ _ hfa⟩⟩
          unfold findAds at hfa
          cases hf : s0.find? (·.speciesSite = a) with
          | some f => rw [hf] at hfa; simp at hfa
          | none => rw [← hs0]; simpa using hf
  obtain ⟨l, hl⟩ := mapM_ok_exists (f := elementaryDtheta o a) (l := o.rxns) (by
    intro rxn hx
    obtain ⟨i, hi, rfl⟩ := List.mem_iff_getElem.mp hx
    obtain ⟨x, hx, -⟩ := single i hi
    exact ⟨x, hx⟩)
  obtain ⟨ll, lg⟩ := mapM_ok_inv hl
  refine ⟨_, by unfold adsorbateDtheta; rw [hl]; rfl, ?_⟩
  intro t ht
  obtain ⟨x, hx, htx⟩ := List.mem_flatMap.mp ht
  obtain ⟨i, hi, rfl⟩ := List.mem_iff_getElem.mp hx
  obtain ⟨y, hy, hp⟩ := single i (by omega)
  have := lg i (by omega) hi
  rw [hy] at this
  have e := Except.ok.inj this
  rw [← e] at htx
  cases y with
  | none => simp at htx
  | some z =>
    obtain ⟨inc, dec⟩ := z
    exact ⟨i, by omega, hp inc dec rfl t htx⟩

end

/-- The coverages when the coverage of `b` is changed to `t`. -/
theorem coverage_update {n : Network} (total v : Str → ℝ) {b s : Str} (hb : b ∈ n.ads) (hnd : n.ads.Nodup)
    (hs : s ∉ n.ads) (hon : OnSite b s) (t : ℝ) :
    coverage n total (Function.update v b t) b = t ∧
    coverage n total (Function.update v b t) s = coverage n total v s + v b - t ∧
    ∀ x, x ≠ b → x ≠ s → coverage n total (Function.update v b t) x = coverage n total v x := by
  have hsum : ∀ l : List Str, l.Nodup → (l.map (Function.update v b t)).sum
      = (l.map v).sum + if b ∈ l then t - v b else 0 := by
    intro l hl
    induction l with
    | nil => simp
    | cons a l ih =>
      rw [List.nodup_cons] at hl
      rw [List.map_cons, List.sum_cons, ih hl.2, List.map_cons, List.sum_cons]
      by_cases e : a = b
      · subst e
        rw [Function.update_self, if_neg hl.1, if_pos (by simp)]
        ring
      · rw [Function.update_of_ne e]
        have hiff : b ∈ a :: l ↔ b ∈ l := by simp [Ne.symm e]
        simp only [hiff]
        ring
  refine ⟨?_, ?_, ?_⟩
  · unfold coverage; rw [if_pos hb, Function.update_self]
  · unfold coverage
    rw [if_neg hs, if_neg hs, hsum _ (hnd.filter _), if_pos (List.mem_filter.mpr ⟨hb, by simpa using hon⟩)]
    ring
  · intro x h1 h2
    unfold coverage
    by_cases hx : x ∈ n.ads
    · rw [if_pos hx, if_pos hx, Function.update_of_ne h1]
    · rw [if_neg hx, if_neg hx, hsum _ (hnd.filter _), if_neg]
      · ring
      · intro hm
        have : OnSite b x := by simpa using (List.mem_filter.mp hm).2
        exact h2 (onSite_unique this hon)

theorem hasDerivAt_form (R c x : ℝ) (p q : Nat) :
    HasDerivAt (fun t : ℝ => R * t ^ p * (c - t) ^ q)
      (R * (p * x ^ (p - 1) * (c - x) ^ q) - R * (q * x ^ p * (c - x) ^ (q - 1))) x := by
  have h1 : HasDerivAt (fun t : ℝ => t ^ p) (p * x ^ (p - 1)) x := hasDerivAt_pow p x
  have h2 : HasDerivAt (fun t : ℝ => c - t) (-1) x := by
    simpa using (hasDerivAt_id x).const_sub c
  have h3 : HasDerivAt (fun t : ℝ => (c - t) ^ q) (q * (c - x) ^ (q - 1) * -1) x := h2.pow q
  have := (h1.mul h3).const_mul R
  have e : (fun t : ℝ => R * t ^ p * (c - t) ^ q) = fun y => R * ((fun t : ℝ => t ^ p) * (fun t : ℝ => (c - t) ^ q) : ℝ → ℝ) y := by
    funext t; simp only [Pi.mul_apply]; ring
  rw [e]
  exact this.congr_deriv (by ring)

theorem evalTerm_vals {o : MFOwner ℝ} {total P C v : Str → ℝ} {env : Env ℝ} (he : EnvOk o total P C v env)
    {T : Term} (hT : TextOk o.net env.kf env.kr (termPieces T)) :
    evalTerm env T = .ok (vals env.kf env.kr P C (coverage o.net total v) (termPieces T)) := by
  have hk : T.idx < (if T.fwd then env.kf else env.kr).length := by
    have := hT.ok (.k T.fwd T.idx) (by simp [termPieces])
    exact this
  have hf : ∀ f ∈ T.factors, FacOk o.net f := fun f hf =>
    hT.ok (.fac f) (by unfold termPieces; simp [hf])
  unfold evalTerm
  rw [List.getElem?_eq_getElem hk]
  simp only [bind, Except.bind, mapM_ok_map fun f hf' => evalFactor_val he (hf f hf')]
  unfold termPieces vals
  rw [List.map_append, List.prod_append, List.map_cons, List.prod_cons, List.map_map]
  simp only [pieceVal, List.getElem?_eq_getElem hk, Option.getD_some]
  have h1 : (List.map (pieceVal env.kf env.kr P C (coverage o.net total v))
      (if T.coef = 1 then [] else [Piece.num T.coef])).prod = (T.coef : ℝ) := by
    split
    · rename_i h; simp [h]
    · simp [pieceVal]
  rw [h1, mul_assoc]
  rfl

/-- The products of a derived term with the operator before the first one. -/
def signFirst (sg : Bool) (L : List (Bool × List (Piece ℝ))) : List (Bool × List (Piece ℝ)) :=
  match L with
  | [] => []
  | (b, x) :: rest => (sg == b, x) :: rest

/-- The derivative of a sum of terms. -/
theorem poly_derivative {o : MFOwner ℝ} {total P C v : Str → ℝ} (hr : Ready o total P C) (kf kr : List ℝ)
    {b s : Str} (hb : b ∈ o.net.ads) (hs : s ∈ o.net.sites) (hon : OnSite b s) (env : ℝ → Env ℝ)
    (henv : ∀ t, (env t).kf = kf ∧ (env t).kr = kr ∧ EnvOk o total P C (Function.update v b t) (env t))
    (q : Poly) (hq : ∀ t ∈ q, TextOk o.net kf kr (termPieces t.2) ∧
      (t.1 = false → ¬ ((termPieces (K := ℝ) t.2).any (Piece.isTheta s) = true ∧
        (termPieces (K := ℝ) t.2).any (Piece.isTheta b) = true))) :
    ∃ (F : ℝ → ℝ) (d : List (Bool × List (Piece ℝ))) (D : ℝ), (∀ t, evalPoly (env t) q = .ok (F t)) ∧
      polyDeriv o b q = .ok d ∧ evalDerived (env (v b)) d = .ok D ∧ HasDerivAt F D (v b) := by
  have hnd := ads_nodup hr.parse
  have hsn := sites_disjoint hr.parse s hs
  have hupd : Function.update v b (v b) = v := Function.update_eq_self b v
  obtain ⟨he1, he2, he3⟩ := henv (v b)
  rw [hupd] at he3
  induction q with
  | nil =>
    refine ⟨fun _ => 0, [], 0, fun t => rfl, rfl, rfl, hasDerivAt_const _ _⟩
  | cons t q ih =>
    obtain ⟨F, d, D, h1, h2, h3, h4⟩ := ih fun u hu => hq u (by simp [hu])
    obtain ⟨sg, T⟩ := t
    obtain ⟨hT, hboth⟩ := hq (sg, T) (by simp)
    obtain ⟨L, R, p, m, l1, l2, l3, l4, l5⟩ := totalDeriv_ok (v := v) hr kf kr hb hs hon hT
    have hval : ∀ t, evalTerm (env t) T = .ok (R * t ^ p * (coverage o.net total v s + v b - t) ^ m) := by
      intro t
      obtain ⟨a1, a2, a3⟩ := henv t
      obtain ⟨c1, c2, c3⟩ := coverage_update total v hb hnd hsn hon t
      rw [evalTerm_vals a3 (by rw [a1, a2]; exact hT), a1, a2, l3 _ c3, c1, c2]
    have hder := hasDerivAt_form R (coverage o.net total v s + v b) (v b) p m
    have hcb : coverage o.net total v b = v b := by unfold coverage; rw [if_pos hb]
    rw [add_sub_cancel_right] at hder
    have hprod : ∀ x : List (Piece ℝ), (∀ y ∈ x, PieceOk o.net kf kr y) →
        (x.mapM (evalPiece (env (v b)))) = .ok (x.map (pieceVal kf kr P C (coverage o.net total v))) := by
      intro x hx
      have := evalProduct he3 (l := x) (by rw [he1, he2]; exact hx)
      rw [he1, he2] at this
      exact this
    have hpe : ∀ t, evalPoly (env t) ((sg, T) :: q)
        = .ok ((if sg then R * t ^ p * (coverage o.net total v s + v b - t) ^ m
          else -(R * t ^ p * (coverage o.net total v s + v b - t) ^ m)) + F t) := by
      intro t
      have := h1 t
      unfold evalPoly at this ⊢
      rw [bind_ok] at this ⊢
      obtain ⟨xs, e1, e2⟩ := this
      refine ⟨(if sg then R * t ^ p * (coverage o.net total v s + v b - t) ^ m
          else -(R * t ^ p * (coverage o.net total v s + v b - t) ^ m)) :: xs, ?_, ?_⟩
      · exact mapM_cons_ok (by simp only [hval t, bind, Except.bind, pure, Except.pure]) e1
      · rw [pure_ok] at e2 ⊢
        rw [List.sum_cons, e2]
    have hpd : ∀ L', signFirst sg L = L' →
        polyDeriv o b ((sg, T) :: q) = .ok (L' ++ d) := by
      intro L' hL'
      unfold polyDeriv at h2 ⊢
      rw [bind_ok] at h2 ⊢
      obtain ⟨ds, e1, e2⟩ := h2
      refine ⟨L' :: ds, ?_, ?_⟩
      · exact mapM_cons_ok (by rw [← hL']; simp only [l1, bind, Except.bind, pure, Except.pure]; cases L <;> rfl) e1
      · rw [pure_ok] at e2 ⊢
        rw [List.flatten_cons, e2]
    have hed : ∀ L' xs, L'.mapM (fun t : Bool × List (Piece ℝ) => do
        let ys ← t.2.mapM (evalPiece (env (v b)))
        pure (if t.1 then ys.prod else -ys.prod)) = .ok xs → evalDerived (env (v b)) (L' ++ d) = .ok (xs.sum + D) := by
      intro L' xs hL'
      unfold evalDerived at h3 ⊢
      rw [bind_ok] at h3 ⊢
      obtain ⟨ys, e1, e2⟩ := h3
      refine ⟨xs ++ ys, mapM_app_ok hL' e1, ?_⟩
      rw [pure_ok] at e2 ⊢
      rw [List.sum_append, e2]
    by_cases hbt : (termPieces (K := ℝ) T).any (Piece.isTheta s) = true ∧ (termPieces (K := ℝ) T).any (Piece.isTheta b) = true
    · have hsg : sg = true := by
        cases sg with
        | true => rfl
        | false => exact absurd hbt (hboth rfl)
      subst hsg
      obtain ⟨x, y, rfl, vx, vy⟩ := l5 hbt
      refine ⟨_, _, _, hpe, hpd [(true, x), (false, y)] rfl, hed _
        [vals kf kr P C (coverage o.net total v) x, - vals kf kr P C (coverage o.net total v) y] ?_, ?_⟩
      · simp only [List.mapM_cons, List.mapM_nil, bind, Except.bind, pure, Except.pure,
          hprod x (l2 (true, x) (by simp)), hprod y (l2 (false, y) (by simp))]
        rfl
      · simp only [if_true]
        have := hder.add h4
        refine this.congr_deriv ?_
        simp only [List.sum_cons, List.sum_nil, vx, vy, hcb]
        ring
    · obtain ⟨sgn, x, rfl, vx⟩ := l4 hbt
      refine ⟨_, _, _, hpe, hpd [(sg == sgn, x)] rfl, hed _ [if sg == sgn then vals kf kr P C (coverage o.net total v) x
        else - vals kf kr P C (coverage o.net total v) x] ?_, ?_⟩
      · simp only [List.mapM_cons, List.mapM_nil, bind, Except.bind, pure, Except.pure,
          hprod x (l2 (sgn, x) (by simp))]
        rfl
      · cases sg with
        | true =>
          simp only [if_true]
          have := hder.add h4
          refine this.congr_deriv ?_
          rw [hcb] at vx
          rw [← vx]
          cases sgn <;> simp
        | false =>
          simp only [Bool.false_eq_true, if_false]
          have := hder.neg.add h4
          refine this.congr_deriv ?_
          rw [hcb] at vx
          rw [← vx]
          cases sgn <;> simp

/-- Row `a`, column `b`: the term consuming `a` does not contain `b` together with its own empty
site `s`, in any reaction. -/
def NoSelfSite (a b s : Str) (states : List (List Formula)) : Prop :=
  (∀ is, states.head? = some is → (∃ f ∈ is, f.speciesSite = a) → ¬ BothIn b s is) ∧
  (∀ is fs, states.head? = some is → states.getLast? = some fs → (∀ f ∈ is, f.speciesSite ≠ a) →
    (∃ gs ∈ states, ∃ f ∈ gs, f.speciesSite = a) → ¬ BothIn b s fs)

/-- Entry by entry, the analytical Jacobian is the derivative of the coverage equations. Missing
for the full claim: terms taken away that contain the adsorbate of the column together with its own
empty site (`C28_dissociation_refuted`), powers of ten and more (`C28_large_power_refuted`), and states with a repeated species
(`C28_repeated_species_refuted`). -/
theorem C28_jacobian_partial (o : MFOwner ℝ) (total P C : Str → ℝ) (h : Ready o total P C)
    (hc : ∀ states ∈ o.net.rxns, RateClean states)
    (hsim : ∀ states ∈ o.net.rxns, ∀ fs, (states.head? = some fs ∨ states.getLast? = some fs) → SimpleState fs)
    (kf kr : List ℝ) (hkf : kf.length = o.rxns.length) (hkr : kr.length = o.rxns.length)
    (hself : ∀ a ∈ o.net.ads, ∀ b ∈ o.net.ads, ∀ s, OnSite b s → ∀ states ∈ o.net.rxns, NoSelfSite a b s states)
    (cvgs : List ℝ) (hlen : cvgs.length = o.net.ads.length) :
    ∃ J, analyticalJacobian o (kf, kr) cvgs = .ok J ∧ J.length = cvgs.length ∧
      ∀ i (_hi : i < cvgs.length), ∃ row, J[i]? = some row ∧ row.length = cvgs.length ∧
        ∀ j (hj : j < cvgs.length), ∃ (D : ℝ) (F : ℝ → ℝ), row[j]? = some D ∧
          (∀ t, ∃ ds, steadyStateFunction o (kf, kr) (cvgs.set j t) = .ok ds ∧ ds[i]? = some (F t)) ∧
          HasDerivAt F D cvgs[j] := by
  have hnd := ads_nodup h.parse
  obtain ⟨v, rfl⟩ := tuple_as_function hnd hlen
  obtain ⟨qs, hqs⟩ := mapM_ok_exists (f := adsorbateDtheta o) (l := o.net.ads)
    (fun a ha => by obtain ⟨q, hq, -⟩ := adsorbateDtheta_terms h.parse ha; exact ⟨q, hq⟩)
  obtain ⟨ql, qg⟩ := mapM_ok_inv hqs
  have entry : ∀ i (hi : i < o.net.ads.length), ∀ b ∈ o.net.ads, ∃ (F : ℝ → ℝ) (d : List (Bool × List (Piece ℝ))) (D : ℝ),
      (∀ t env, mkEnv o (kf, kr) (o.net.ads.map (Function.update v b t)) = .ok env →
        evalPoly env (qs[i]'(by omega)) = .ok (F t)) ∧
      polyDeriv o b (qs[i]'(by omega)) = .ok d ∧
      (∀ env, mkEnv o (kf, kr) (o.net.ads.map v) = .ok env → evalDerived env d = .ok D) ∧ HasDerivAt F D (v b) := by
    intro i hi b hb
    obtain ⟨s, hs, hon⟩ := ads_onSite h.parse hb
    have henv : ∀ t, ∃ env, mkEnv o (kf, kr) (o.net.ads.map (Function.update v b t)) = .ok env ∧
        env.kf = kf ∧ env.kr = kr ∧ EnvOk o total P C (Function.update v b t) env := by
      intro t
      obtain ⟨env, e1, e2, e3, e4⟩ := mkEnv_ok h (Function.update v b t) (kf, kr)
      exact ⟨env, e1, e2, e3, e4⟩
    choose env he using henv
    obtain ⟨q, hq1, hq2⟩ := adsorbateDtheta_terms h.parse (List.getElem_mem (l := o.net.ads) (n := i) hi)
    have hqi := qg i hi (by omega)
    rw [hq1] at hqi
    have hqe := Except.ok.inj hqi
    obtain ⟨F, d, D, h1, h2, h3, h4⟩ := poly_derivative h kf kr hb hs hon env (fun t => (he t).2) q (by
      intro t ht
      obtain ⟨j, hj, st, is, fs, n, e1, e2, e3, e4, o1, o2, hcase⟩ := hq2 t ht
      have hst := List.mem_of_getElem? e2
      have hlt := (idxOf_getElem?_same hj).1
      have hno := hself _ (List.getElem_mem (l := o.net.ads) (n := i) hi) b hb s hon st hst
      rcases hcase with ⟨hT, hdec⟩ | ⟨hT, hdec⟩
      · obtain ⟨t1, t2⟩ := textOk_of h kf kr (hc st hst) (Or.inl e3) o1 (hsim st hst is (Or.inl e3)) n
          (o.rxns.idxOf o.rxns[j]) true (by rw [if_pos rfl]; omega)
        rw [hT]
        refine ⟨t1, fun hf hbt => ?_⟩
        exact hno.1 is e3 (hdec hf) ⟨t2 b (List.mem_append_right _ hb) hbt.2, t2 s (List.mem_append_left _ hs) hbt.1⟩
      · obtain ⟨t1, t2⟩ := textOk_of h kf kr (hc st hst) (Or.inr e4) o2 (hsim st hst fs (Or.inr e4)) n
          (o.rxns.idxOf o.rxns[j]) false (by simp; omega)
        rw [hT]
        refine ⟨t1, fun hf hbt => ?_⟩
        exact hno.2 is fs e3 e4 (hdec hf).1 (hdec hf).2
          ⟨t2 b (List.mem_append_right _ hb) hbt.2, t2 s (List.mem_append_left _ hs) hbt.1⟩)
    refine ⟨F, d, D, ?_, by rw [← hqe]; exact h2, ?_, h4⟩
    · intro t e he'
      rw [(he t).1] at he'
      rw [← Except.ok.inj he', ← hqe]; exact h1 t
    · intro e he'
      have := (he (v b)).1
      rw [Function.update_eq_self, he'] at this
      rw [Except.ok.inj this]; exact h3
  obtain ⟨env, e1, -⟩ := mkEnv_ok h v (kf, kr)
  -- the matrix
  have hrow : ∀ i (hi : i < o.net.ads.length), ∃ row, (o.net.ads.mapM fun a => do
      let d ← polyDeriv o a (qs[i]'(by omega))
      evalDerived env d : Py (List ℝ)) = .ok row := by
    intro i hi
    apply mapM_ok_exists
    intro b hb
    obtain ⟨F, d, D, -, k2, k3, -⟩ := entry i hi b hb
    exact ⟨D, by rw [k2]; exact k3 env e1⟩
  obtain ⟨J, hJ⟩ := mapM_ok_exists (f := fun q => (o.net.ads.mapM fun a => do
      let d ← polyDeriv o a q
      evalDerived env d : Py (List ℝ))) (l := qs) (by
    intro q hq
    obtain ⟨i, hi, rfl⟩ := List.mem_iff_getElem.mp hq
    exact hrow i (by omega))
  obtain ⟨Jl, Jg⟩ := mapM_ok_inv hJ
  refine ⟨J, ?_, by simp [Jl, ql], ?_⟩
  · unfold analyticalJacobian
    rw [hqs]
    simp only [bind, Except.bind]
    rw [if_neg (by simp [ql])]
    simp only [e1]
    exact hJ
  · intro i hi
    rw [List.length_map] at hi
    have hrowi := Jg i (by omega) (by omega)
    obtain ⟨rl, rg⟩ := mapM_ok_inv hrowi
    refine ⟨J[i], List.getElem?_eq_getElem _, by simp [rl], ?_⟩
    intro j hj
    rw [List.length_map] at hj
    obtain ⟨F, d, D, k1, k2, k3, k4⟩ := entry i hi _ (List.getElem_mem (l := o.net.ads) (n := j) hj)
    refine ⟨D, F, ?_, ?_, ?_⟩
    · have := rg j hj (by omega)
      rw [k2] at this
      have := (k3 env e1).symm.trans this
      rw [List.getElem?_eq_getElem (by omega), ← Except.ok.inj this]
    · intro t
      have hset : (o.net.ads.map v).set j t = o.net.ads.map (Function.update v o.net.ads[j] t) := by
        apply List.ext_getElem
        · simp
        · intro m m1 m2
          rw [List.getElem_set, List.getElem_map, List.getElem_map]
          by_cases e : j = m
          · subst e; rw [if_pos rfl, Function.update_self]
          · rw [if_neg e, Function.update_of_ne]
            intro e'
            exact e ((List.Nodup.getElem_inj_iff hnd).mp e').symm
      rw [hset]
      obtain ⟨envt, f1, -⟩ := mkEnv_ok h (Function.update v o.net.ads[j] t) (kf, kr)
      have hex : ∃ ys, qs.mapM (evalPoly envt) = .ok ys := by
        apply mapM_ok_exists
        intro q hq
        obtain ⟨m, hm, rfl⟩ := List.mem_iff_getElem.mp hq
        obtain ⟨F', d', D', k1', -⟩ := entry m (by omega) _ (List.getElem_mem (l := o.net.ads) (n := j) hj)
        exact ⟨_, k1' t envt f1⟩
      obtain ⟨ys, hys⟩ := hex
      obtain ⟨yl, yg⟩ := mapM_ok_inv hys
      refine ⟨ys, ?_, ?_⟩
      · unfold steadyStateFunction
        rw [f1]
        simp only [bind, Except.bind, hqs]
        exact hys
      · have := yg i (by omega) (by omega)
        rw [k1 t envt f1] at this
        rw [List.getElem?_eq_getElem (by omega), ← Except.ok.inj this]
    · rw [List.getElem_map]; exact k4



/-! The hypotheses are met by CO oxidation over the reals. -/

noncomputable def exMFR : MFOwner ℝ :=
  ⟨exRxns, exNet, [(str! "*_s", 1)], [(str! "CO_g", 1 / 2), (str! "O2_g", 1 / 4), (str! "CO2_g", 1 / 8)], []⟩

noncomputable def exPR (g : Str) : ℝ := if g = str! "CO_g" then 1 / 2 else if g = str! "O2_g" then 1 / 4 else 1 / 8

theorem exMFR_ready : Ready exMFR (fun _ => 1) exPR (fun _ => 0) := by
  refine ⟨exNet_ok, ?_, ?_, ?_⟩
  · intro s hs
    have : exMFR.net.sites = [str! "*_s"] := by decide
    rw [this, List.mem_singleton] at hs
    subst hs; rfl
  · intro g hg
    have : exMFR.net.gas = [str! "CO2_g", str! "CO_g", str! "O2_g"] := by decide
    rw [this] at hg
    simp only [List.mem_cons, List.not_mem_nil, or_false] at hg
    rcases hg with rfl | rfl | rfl
    · have : exPR (str! "CO2_g") = 1 / 8 := by unfold exPR; rw [if_neg (by decide), if_neg (by decide)]
      rw [this]; rfl
    · have : exPR (str! "CO_g") = 1 / 2 := by unfold exPR; rw [if_pos rfl]
      rw [this]; rfl
    · have : exPR (str! "O2_g") = 1 / 4 := by unfold exPR; rw [if_neg (by decide), if_pos rfl]
      rw [this]; rfl
  · intro g hg
    have : exMFR.net.liq = [] := by decide
    rw [this] at hg
    cases hg

def simpleB (fs : List Formula) : Bool :=
  decide (fs.map (·.speciesSite)).Nodup && fs.all fun f => decide (1 ≤ f.stoich ∧ f.stoich ≤ 9)

theorem exMFR_simple : ∀ states ∈ exMFR.net.rxns, ∀ fs, (states.head? = some fs ∨ states.getLast? = some fs) →
    SimpleState fs := by
  have h : ∀ states ∈ exMFR.net.rxns, ∀ fs ∈ states, simpleB fs = true := by decide
  intro st hst fs hfs
  have := h st hst fs (by
    rcases hfs with e | e
    · exact List.mem_of_mem_head? e
    · exact List.mem_of_mem_getLast? e)
  unfold simpleB at this
  simpa [SimpleState, List.all_eq_true] using this

theorem exMFR_self : ∀ a ∈ exMFR.net.ads, ∀ b ∈ exMFR.net.ads, ∀ s, OnSite b s →
    ∀ states ∈ exMFR.net.rxns, NoSelfSite a b s states := by
  intro a ha b hb s hon
  obtain ⟨s', hs', hon'⟩ := ads_onSite exMFR_ready.parse hb
  have e := onSite_unique hon hon'
  have : exMFR.net.sites = [str! "*_s"] := by decide
  rw [this, List.mem_singleton] at hs'
  subst hs'
  subst e
  have h : ∀ b ∈ exMFR.net.ads, ∀ states ∈ exMFR.net.rxns, ∀ fs ∈ states,
      (fs.any (fun f => decide (f.speciesSite = b)) && fs.any (fun f => decide (f.speciesSite = str! "*_s"))) = false := by
    decide
  have key : ∀ states ∈ exMFR.net.rxns, ∀ fs ∈ states, ¬ BothIn b (str! "*_s") fs := by
    rintro st hst fs hfs ⟨⟨f, hf, e1⟩, g, hg, e2⟩
    have := h b hb st hst fs hfs
    rw [Bool.and_eq_false_iff] at this
    rcases this with h | h
    · rw [List.any_eq_false] at h
      exact h f hf (by simpa using e1)
    · rw [List.any_eq_false] at h
      exact h g hg (by simpa using e2)
  intro st hst
  exact ⟨fun is h _ => key st hst is (List.mem_of_mem_head? h),
    fun is fs _ h _ _ => key st hst fs (List.mem_of_mem_getLast? h)⟩

example : ∃ J, analyticalJacobian exMFR ([2, 3, 5], [7, 11, 13]) [1 / 4, 1 / 4] = .ok J ∧ J.length = 2 := by
  obtain ⟨J, h1, h2, -⟩ := C28_jacobian_partial exMFR _ _ _ exMFR_ready exMF_clean exMFR_simple [2, 3, 5] [7, 11, 13]
    (by decide) (by decide) exMFR_self [1 / 4, 1 / 4] (by decide)
  exact ⟨J, h1, h2⟩
example : analyticalJacobian exMF ([2, 3, 5], [7, 11, 13]) [1 / 4, 1 / 4]
    = .ok [[-87 / 8, -31 / 8], [-35 / 8, -123 / 8]] := by decide +kernel

/-! The sign of the second product is lost: a concrete case. -/

noncomputable def exSplit : MFOwner ℝ :=
  ⟨[str! "CO_s + *_s -> C_s + O_s"], netOf [str! "CO_s + *_s -> C_s + O_s"], [(str! "*_s", 1)], [], []⟩

noncomputable def exSplitEnv (t : ℝ) : Env ℝ :=
  ⟨[1], [0], [(str! "CO_s", t), (str! "C_s", 0), (str! "O_s", 0), (str! "*_s", 1 - ([t, 0, 0] : List ℝ).sum)], [], []⟩

def exSplitGain : Term := ⟨1, false, 0, [⟨.theta, str! "C_s", 1⟩, ⟨.theta, str! "O_s", 1⟩]⟩

def exSplitLoss : Term := ⟨1, true, 0, [⟨.theta, str! "CO_s", 1⟩, ⟨.theta, str! "*_s", 1⟩]⟩

theorem exSplit_function (t : ℝ) : ∃ x y, steadyStateFunction exSplit ([1], [0]) [t, 0, 0] = .ok [t * t - t, x, y] := by
  have h : evalPoly (exSplitEnv t) [(true, exSplitGain), (false, exSplitLoss)] = .ok (t * t - t) := by
    have : (t * t - t) = ([((1 : ℕ) : ℝ) * 0 * ([(0:ℝ) ^ 1, 0 ^ 1]).prod,
        -(((1 : ℕ) : ℝ) * 1 * ([t ^ 1, (1 - ([t, 0, 0] : List ℝ).sum) ^ 1]).prod)]).sum := by
      simp; ring
    rw [this]; rfl
  have h' : ∃ x, evalPoly (exSplitEnv t) [(true, exSplitLoss), (false, exSplitGain)] = .ok x := ⟨_, rfl⟩
  obtain ⟨x, hx⟩ := h'
  have e : steadyStateFunction exSplit ([1], [0]) [t, 0, 0]
      = [[(true, exSplitGain), (false, exSplitLoss)], [(true, exSplitLoss), (false, exSplitGain)],
         [(true, exSplitLoss), (false, exSplitGain)]].mapM (evalPoly (exSplitEnv t)) := by rfl
  refine ⟨x, x, ?_⟩
  rw [e]
  exact mapM_cons_ok h (mapM_cons_ok hx (mapM_cons_ok hx rfl))

theorem exSplit_jacobian : ∃ x y r1 r2, analyticalJacobian exSplit ([1], [0]) [1 / 2, 0, 0]
    = .ok [[-1, x, y], r1, r2] := by
  have e : analyticalJacobian exSplit ([1], [0]) [1 / 2, 0, 0]
      = [[(true, exSplitGain), (false, exSplitLoss)], [(true, exSplitLoss), (false, exSplitGain)],
         [(true, exSplitLoss), (false, exSplitGain)]].mapM (fun q =>
          [str! "CO_s", str! "C_s", str! "O_s"].mapM fun a => do
            let d ← polyDeriv exSplit a q
            evalDerived (exSplitEnv (1 / 2)) d) := by rfl
  have r0 : ∃ r, ([str! "CO_s", str! "C_s", str! "O_s"].mapM fun a => do
            let d ← polyDeriv exSplit a [(true, exSplitLoss), (false, exSplitGain)]
            evalDerived (exSplitEnv (1 / 2)) d : Py (List ℝ)) = .ok r := ⟨_, rfl⟩
  obtain ⟨r0, h0⟩ := r0
  have x0 : ∃ r, (do
            let d ← polyDeriv exSplit (str! "C_s") [(true, exSplitGain), (false, exSplitLoss)]
            evalDerived (exSplitEnv (1 / 2)) d : Py ℝ) = .ok r := ⟨_, rfl⟩
  have y0 : ∃ r, (do
            let d ← polyDeriv exSplit (str! "O_s") [(true, exSplitGain), (false, exSplitLoss)]
            evalDerived (exSplitEnv (1 / 2)) d : Py ℝ) = .ok r := ⟨_, rfl⟩
  obtain ⟨x, hx⟩ := x0
  obtain ⟨y, hy⟩ := y0
  have d1 : polyDeriv exSplit (str! "CO_s") [(true, exSplitGain), (false, exSplitLoss)]
      = .ok [(true, [.num 0]), (false, [.num 1, .k true 0, .fac ⟨.theta, str! "*_s", 1⟩]),
        (false, [.k true 0, .fac ⟨.theta, str! "CO_s", 1⟩])] := by rfl
  have hm : (do
            let d ← polyDeriv exSplit (str! "CO_s") [(true, exSplitGain), (false, exSplitLoss)]
            evalDerived (exSplitEnv (1 / 2)) d : Py ℝ) = .ok (-1) := by
    rw [d1]
    have : (-1 : ℝ) = [([((0 : ℕ) : ℝ)]).prod,
        -([((1 : ℕ) : ℝ), 1, (1 - ([1 / 2, 0, 0] : List ℝ).sum) ^ 1]).prod,
        -([(1 : ℝ), (1 / 2) ^ 1]).prod].sum := by
      norm_num
    rw [this]
    rfl
  refine ⟨x, y, r0, r0, ?_⟩
  rw [e]
  exact mapM_cons_ok (mapM_cons_ok hm (mapM_cons_ok hx (mapM_cons_ok hy rfl))) (mapM_cons_ok h0 (mapM_cons_ok h0 rfl))

/-- For `CO_s + *_s -> C_s + O_s` the entry for CO at half coverage is −1; the derivative of the
coverage equation there is 0. The term taken away contains CO and its own empty site, and the
derivative of the product is written without parentheses behind the minus sign. -/
theorem C28_dissociation_refuted :
    Ready exSplit (fun _ => 1) (fun _ => 0) (fun _ => 0) ∧ exSplit.net.ads[0]? = some (str! "CO_s") ∧
    (∃ x y r1 r2, analyticalJacobian exSplit ([1], [0]) [1 / 2, 0, 0] = .ok [[-1, x, y], r1, r2]) ∧
    ∃ F : ℝ → ℝ, (∀ t, ∃ x y, steadyStateFunction exSplit ([1], [0]) [t, 0, 0] = .ok [F t, x, y]) ∧
      HasDerivAt F 0 (1 / 2) ∧ ∀ D, HasDerivAt F D (1 / 2) → D = 0 := by
  have hd : HasDerivAt (fun t : ℝ => t * t - t) 0 (1 / 2) := by
    have h := ((hasDerivAt_id (1 / 2 : ℝ)).mul (hasDerivAt_id (1 / 2 : ℝ))).sub (hasDerivAt_id (1 / 2 : ℝ))
    exact h.congr_deriv (by norm_num)
  refine ⟨⟨rfl, ?_, ?_, ?_⟩, rfl, exSplit_jacobian, fun t => t * t - t, exSplit_function, hd, fun D h => h.unique hd⟩
  · intro s hs
    have : exSplit.net.sites = [str! "*_s"] := by rfl
    rw [this, List.mem_singleton] at hs
    subst hs; rfl
  · intro g hg; exact absurd hg (by show g ∉ ([] : List Str); simp)
  · intro g hg; exact absurd hg (by show g ∉ ([] : List Str); simp)

/-! A power with two digits: a concrete case. -/

noncomputable def exDozen : MFOwner ℝ :=
  ⟨[str! "12CO_s -> 12CO_g + 12*_s"], netOf [str! "12CO_s -> 12CO_g + 12*_s"], [(str! "*_s", 1)], [(str! "CO_g", 1)], []⟩

noncomputable def exDozenEnv (t : ℝ) : Env ℝ :=
  ⟨[1], [0], [(str! "CO_s", t), (str! "*_s", 1 - ([t] : List ℝ).sum)], [(str! "CO_g", 1)], []⟩

def exDozenGain : Term := ⟨12, false, 0, [⟨.p, str! "CO_g", 12⟩, ⟨.theta, str! "*_s", 12⟩]⟩

def exDozenLoss : Term := ⟨12, true, 0, [⟨.theta, str! "CO_s", 12⟩]⟩

theorem exDozen_function (t : ℝ) : steadyStateFunction exDozen ([1], [0]) [t] = .ok [-(12 * t ^ 12)] := by
  have h : evalPoly (exDozenEnv t) [(true, exDozenGain), (false, exDozenLoss)] = .ok (-(12 * t ^ 12)) := by
    have : (-(12 * t ^ 12)) = ([((12 : ℕ) : ℝ) * 0 * ([(1:ℝ) ^ 12, (1 - ([t] : List ℝ).sum) ^ 12]).prod,
        -(((12 : ℕ) : ℝ) * 1 * ([t ^ 12]).prod)]).sum := by
      simp
    rw [this]; rfl
  have e : steadyStateFunction exDozen ([1], [0]) [t]
      = [[(true, exDozenGain), (false, exDozenLoss)]].mapM (evalPoly (exDozenEnv t)) := by rfl
  rw [e]
  exact mapM_cons_ok h rfl

theorem leadingDigit_twelve : leadingDigit 12 = 1 := by simp [leadingDigit]

theorem exDozen_jacobian : analyticalJacobian exDozen ([1], [0]) [1] = .ok [[-12]] := by
  have e : analyticalJacobian exDozen ([1], [0]) [1]
      = [[(true, exDozenGain), (false, exDozenLoss)]].mapM (fun q =>
          [str! "CO_s"].mapM fun a => do
            let d ← polyDeriv exDozen a q
            evalDerived (exDozenEnv 1) d) := by rfl
  have s1 : regexSplit (K := ℝ) (str! "*_s") (termPieces exDozenGain)
      = .ok ([.num 12, .k false 0, .fac ⟨.p, str! "CO_g", 12⟩], 1, []) := by
    unfold regexSplit
    rw [show splitLast (K := ℝ) (str! "*_s") (termPieces exDozenGain)
      = some ([.num 12, .k false 0, .fac ⟨.p, str! "CO_g", 12⟩], 12, []) from rfl]
    simp only [leadingDigit_twelve]
    rfl
  have s2 : regexSplit (K := ℝ) (str! "CO_s") (termPieces exDozenLoss)
      = .ok ([.num 12, .k true 0], 1, []) := by
    unfold regexSplit
    rw [show splitLast (K := ℝ) (str! "CO_s") (termPieces exDozenLoss)
      = some ([.num 12, .k true 0], 12, []) from rfl]
    simp only [leadingDigit_twelve]
    rfl
  have d1 : derivTerm (K := ℝ) (str! "*_s") (termPieces exDozenGain)
      = .ok [.num 12, .k false 0, .fac ⟨.p, str! "CO_g", 12⟩] := by
    unfold derivTerm; rw [s1]; rfl
  have d2 : derivTerm (K := ℝ) (str! "CO_s") (termPieces exDozenLoss) = .ok [.num 12, .k true 0] := by
    unfold derivTerm; rw [s2]; rfl
  have t1 : totalDeriv exDozen (str! "CO_s") (termPieces exDozenGain)
      = .ok [(false, [.num 12, .k false 0, .fac ⟨.p, str! "CO_g", 12⟩])] := by
    have : totalDeriv exDozen (str! "CO_s") (termPieces exDozenGain)
      = (derivTerm (K := ℝ) (str! "*_s") (termPieces exDozenGain) >>= fun d =>
        pure [(false, d.map (substFree (str! "*_s") 1 [str! "CO_s"]))]) := rfl
    rw [this, d1]; rfl
  have t2 : totalDeriv exDozen (str! "CO_s") (termPieces exDozenLoss)
      = .ok [(true, [.num 12, .k true 0])] := by
    have : totalDeriv exDozen (str! "CO_s") (termPieces exDozenLoss)
      = (derivTerm (K := ℝ) (str! "CO_s") (termPieces exDozenLoss) >>= fun d => pure [(true, d)]) := rfl
    rw [this, d2]; rfl
  have hp : polyDeriv exDozen (str! "CO_s") [(true, exDozenGain), (false, exDozenLoss)]
      = .ok [(false, [.num 12, .k false 0, .fac ⟨.p, str! "CO_g", 12⟩]), (false, [.num 12, .k true 0])] := by
    unfold polyDeriv
    rw [List.mapM_cons, List.mapM_cons, List.mapM_nil, t1, t2]
    rfl
  have hm : (do
            let d ← polyDeriv exDozen (str! "CO_s") [(true, exDozenGain), (false, exDozenLoss)]
            evalDerived (exDozenEnv 1) d : Py ℝ) = .ok (-12) := by
    rw [hp]
    have : (-12 : ℝ) = [-([((12 : ℕ) : ℝ), 0, (1 : ℝ) ^ 12]).prod, -([((12 : ℕ) : ℝ), 1]).prod].sum := by
      norm_num
    rw [this]
    rfl
  rw [e]
  exact mapM_cons_ok (mapM_cons_ok hm rfl) rfl

/-- For `12CO_s -> 12CO_g + 12*_s` the entry at full coverage is −12; the derivative of the coverage
equation there is −144. Of the power 12 the pattern reads the digit 1. -/
theorem C28_large_power_refuted :
    Ready exDozen (fun _ => 1) (fun _ => 1) (fun _ => 0) ∧
    analyticalJacobian exDozen ([1], [0]) [1] = .ok [[-12]] ∧
    ∃ F : ℝ → ℝ, (∀ t, steadyStateFunction exDozen ([1], [0]) [t] = .ok [F t]) ∧
      HasDerivAt F (-144) 1 ∧ ∀ D, HasDerivAt F D 1 → D = -144 := by
  have hd : HasDerivAt (fun t : ℝ => -(12 * t ^ 12)) (-144) 1 := by
    have h := ((hasDerivAt_pow 12 (1 : ℝ)).const_mul 12).fun_neg
    exact h.congr_deriv (by norm_num)
  refine ⟨⟨rfl, ?_, ?_, ?_⟩, exDozen_jacobian, _, exDozen_function, hd, fun D h => h.unique hd⟩
  · intro s hs
    have : exDozen.net.sites = [str! "*_s"] := by rfl
    rw [this, List.mem_singleton] at hs
    subst hs; rfl
  · intro g hg
    have : exDozen.net.gas = [str! "CO_g"] := by rfl
    rw [this, List.mem_singleton] at hg
    subst hg; rfl
  · intro g hg; exact absurd hg (by show g ∉ ([] : List Str); simp)

/-! A species written twice in one state: a concrete case. -/

noncomputable def exRepeat : MFOwner ℝ :=
  ⟨[str! "O_s + O_s -> O2_g + 2*_s"], netOf [str! "O_s + O_s -> O2_g + 2*_s"], [(str! "*_s", 1)], [(str! "O2_g", 1)], []⟩

noncomputable def exRepeatEnv (t : ℝ) : Env ℝ :=
  ⟨[1], [0], [(str! "O_s", t), (str! "*_s", 1 - ([t] : List ℝ).sum)], [(str! "O2_g", 1)], []⟩

def exRepeatGain : Term := ⟨1, false, 0, [⟨.p, str! "O2_g", 1⟩, ⟨.theta, str! "*_s", 2⟩]⟩

def exRepeatLoss : Term := ⟨1, true, 0, [⟨.theta, str! "O_s", 1⟩, ⟨.theta, str! "O_s", 1⟩]⟩

theorem exRepeat_function (t : ℝ) : steadyStateFunction exRepeat ([1], [0]) [t] = .ok [-(t * t)] := by
  have h : evalPoly (exRepeatEnv t) [(true, exRepeatGain), (false, exRepeatLoss)] = .ok (-(t * t)) := by
    have : (-(t * t)) = ([((1 : ℕ) : ℝ) * 0 * ([(1:ℝ) ^ 1, (1 - ([t] : List ℝ).sum) ^ 2]).prod,
        -(((1 : ℕ) : ℝ) * 1 * ([t ^ 1, t ^ 1]).prod)]).sum := by
      simp
    rw [this]; rfl
  have e : steadyStateFunction exRepeat ([1], [0]) [t]
      = [[(true, exRepeatGain), (false, exRepeatLoss)]].mapM (evalPoly (exRepeatEnv t)) := by rfl
  rw [e]
  exact mapM_cons_ok h rfl

theorem exRepeat_jacobian : analyticalJacobian exRepeat ([1], [0]) [1 / 2] = .ok [[-1 / 2]] := by
  have e : analyticalJacobian exRepeat ([1], [0]) [1 / 2]
      = [[(true, exRepeatGain), (false, exRepeatLoss)]].mapM (fun q =>
          [str! "O_s"].mapM fun a => do
            let d ← polyDeriv exRepeat a q
            evalDerived (exRepeatEnv (1 / 2)) d) := by rfl
  have hp : polyDeriv exRepeat (str! "O_s") [(true, exRepeatGain), (false, exRepeatLoss)]
      = .ok [(false, [.num 2, .k false 0, .fac ⟨.p, str! "O2_g", 1⟩, .free 1 [str! "O_s"] 1]),
        (false, [.k true 0, .fac ⟨.theta, str! "O_s", 1⟩])] := by rfl
  have hm : (do
            let d ← polyDeriv exRepeat (str! "O_s") [(true, exRepeatGain), (false, exRepeatLoss)]
            evalDerived (exRepeatEnv (1 / 2)) d : Py ℝ) = .ok (-1 / 2) := by
    rw [hp]
    have hf : evalPiece (exRepeatEnv (1 / 2)) (.free 1 [str! "O_s"] 1) = .ok (1 / 2) := by
      have : evalPiece (exRepeatEnv (1 / 2)) (.free 1 [str! "O_s"] 1) = pyPow (1 - ([1 / 2] : List ℝ).sum) 1 := rfl
      rw [this]
      unfold pyPow
      norm_num
    have h1 : ([.num 2, .k false 0, .fac ⟨.p, str! "O2_g", 1⟩, .free 1 [str! "O_s"] 1] : List (Piece ℝ)).mapM
        (evalPiece (exRepeatEnv (1 / 2))) = .ok [((2 : ℕ) : ℝ), 0, (1 : ℝ) ^ 1, 1 / 2] :=
      mapM_cons_ok rfl (mapM_cons_ok rfl (mapM_cons_ok rfl (mapM_cons_ok hf rfl)))
    have h2 : ([.k true 0, .fac ⟨.theta, str! "O_s", 1⟩] : List (Piece ℝ)).mapM
        (evalPiece (exRepeatEnv (1 / 2))) = .ok [(1 : ℝ), (1 / 2) ^ 1] := rfl
    show evalDerived _ _ = _
    unfold evalDerived
    rw [mapM_cons_ok (b := -([((2 : ℕ) : ℝ), 0, (1 : ℝ) ^ 1, 1 / 2].prod))
      (bs := [-([(1 : ℝ), (1 / 2) ^ 1].prod)]) (by dsimp only; rw [h1]; rfl) (mapM_cons_ok (by dsimp only; rw [h2]; rfl) rfl)]
    show Except.ok _ = Except.ok _
    norm_num
  rw [e]
  exact mapM_cons_ok (mapM_cons_ok hm rfl) rfl

/-- For `O_s + O_s -> O2_g + 2*_s` the entry at half coverage is −1/2; the derivative of the
coverage equation there is −1. The pattern finds the last of the two factors only. -/
theorem C28_repeated_species_refuted :
    Ready exRepeat (fun _ => 1) (fun _ => 1) (fun _ => 0) ∧
    analyticalJacobian exRepeat ([1], [0]) [1 / 2] = .ok [[-1 / 2]] ∧
    ∃ F : ℝ → ℝ, (∀ t, steadyStateFunction exRepeat ([1], [0]) [t] = .ok [F t]) ∧
      HasDerivAt F (-1) (1 / 2) ∧ ∀ D, HasDerivAt F D (1 / 2) → D = -1 := by
  have hd : HasDerivAt (fun t : ℝ => -(t * t)) (-1) (1 / 2) := by
    have h := ((hasDerivAt_id (1 / 2 : ℝ)).mul (hasDerivAt_id (1 / 2 : ℝ))).fun_neg
    exact h.congr_deriv (by norm_num)
  refine ⟨⟨rfl, ?_, ?_, ?_⟩, exRepeat_jacobian, _, exRepeat_function, hd, fun D h => h.unique hd⟩
  · intro s hs
    have : exRepeat.net.sites = [str! "*_s"] := by rfl
    rw [this, List.mem_singleton] at hs
    subst hs; rfl
  · intro g hg
    have : exRepeat.net.gas = [str! "O2_g"] := by rfl
    rw [this, List.mem_singleton] at hg
    subst hg; rfl
  · intro g hg; exact absurd hg (by show g ∉ ([] : List Str); simp)

/-- Differentiating a text in which the species does not stand fails. -/
theorem C28_no_factor {K : Type} (name : Str) (l : List (Piece K)) (h : ∀ x ∈ l, Piece.isTheta name x = false) :
    derivTerm name l = .error .AttributeError := by
  have hs : splitLast name l = none := by
    induction l with
    | nil => rfl
    | cons x l ih =>
      unfold splitLast
      rw [ih (fun y hy => h y (by simp [hy]))]
      have hx := h x (by simp)
      cases x with
      | fac f =>
        simp only [Piece.isTheta, decide_eq_false_iff_not] at hx
        simp only [if_neg hx]
      | _ => rfl
  unfold derivTerm regexSplit
  rw [hs]
  rfl

example : derivTerm (K := ℚ) (str! "O_s") [.k true 0, .fac ⟨.theta, str! "CO_s", 1⟩] = .error .AttributeError :=
  C28_no_factor _ _ (by decide)

/-- A tuple of another length is rejected. -/
theorem C28_length_checked (o : MFOwner ℝ) (k : List ℝ × List ℝ) (cvgs : List ℝ)
    (h : parseNetwork o.rxns = .ok o.net) (hlen : cvgs.length ≠ o.net.ads.length) :
    analyticalJacobian o k cvgs = .error .ParameterError := by
  obtain ⟨qs, hqs⟩ := mapM_ok_exists (f := adsorbateDtheta o) (l := o.net.ads)
    (fun a ha => by obtain ⟨q, hq, -⟩ := adsorbateDtheta_terms h ha; exact ⟨q, hq⟩)
  obtain ⟨ql, -⟩ := mapM_ok_inv hqs
  unfold analyticalJacobian
  rw [hqs]
  simp only [bind, Except.bind]
  rw [if_pos (by omega)]

end Verif
