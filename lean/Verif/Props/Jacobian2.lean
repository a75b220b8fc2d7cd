import Verif.Props.Jacobian
import Verif.Props.Exact
/-
Property C28: what the analytical Jacobian is when the conditions of `C28_jacobian_partial` on products of an adsorbate
and its own empty site are left out, and when exactly it is right.
-/
namespace Verif
open Dict
set_option linter.unusedSectionVars false

/-! ## Specification -/

/-- The derivative of the activity of a state with respect to the coverage of the empty site `s`, the other coverages kept. -/
noncomputable def bySite (P C θ : Str → ℝ) (s : Str) (fs : List Formula) : ℝ :=
  totalCoef s fs * θ s ^ (totalCoef s fs - 1) * stateActivity P C θ (fs.filter fun f => f.speciesSite ≠ s)

open Classical in
/-- What the sign lost in one reaction amounts to: the reaction takes `|z|` of the adsorbate of the row away by its forward
rate if `z` is negative and by its reverse rate otherwise; if the adsorbate `b` of the column stands in that state with its
own empty site `s`, the change through the empty site has the wrong sign. -/
noncomputable def turnedSign (P C θ : Str → ℝ) (b s : Str) (kf kr : ℝ) (z : Int) (states : List (List Formula)) : ℝ :=
  match if z < 0 then states.head? else states.getLast? with
  | none => 0
  | some fs => if BothIn b s fs then |(z : ℝ)| * ((if z < 0 then kf else kr) * bySite P C θ s fs) else 0

/-! ## Proofs -/

theorem stateActivity_site {P C θ : Str → ℝ} {s : Str} {fs : List Formula}
    (h : ∀ f ∈ fs, f.speciesSite = s → specKind f.species f.site ≠ .gas ∧ specKind f.species f.site ≠ .liquid) (x : ℝ) :
    stateActivity P C (Function.update θ s x) fs
      = stateActivity P C θ (fs.filter fun f => f.speciesSite ≠ s) * x ^ totalCoef s fs := by
  induction fs with
  | nil => simp [stateActivity, totalCoef]
  | cons f fs ih =>
    have ih := ih fun g hg => h g (by simp [hg])
    unfold stateActivity totalCoef at ih ⊢
    rw [List.map_cons, List.prod_cons, ih]
    by_cases e : f.speciesSite = s
    · obtain ⟨h1, h2⟩ := h f (by simp) e
      have ha : specAct P C (Function.update θ s x) f = x := by
        unfold specAct
        cases hk : specKind f.species f.site <;> simp_all
      rw [ha, List.filter_cons_of_neg (by simpa using e), List.filter_cons_of_pos (by simpa using e)]
      rw [List.map_cons, List.sum_cons, pow_add]
      ring
    · have ha : specAct P C (Function.update θ s x) f = specAct P C θ f := by
        unfold specAct
        rw [Function.update_of_ne e]
      rw [ha, List.filter_cons_of_pos (by simpa using e), List.filter_cons_of_neg (by simpa using e)]
      rw [List.map_cons, List.prod_cons]
      ring

theorem bySite_deriv {P C θ : Str → ℝ} {s : Str} {fs : List Formula}
    (h : ∀ f ∈ fs, f.speciesSite = s → specKind f.species f.site ≠ .gas ∧ specKind f.species f.site ≠ .liquid) :
    HasDerivAt (fun x => stateActivity P C (Function.update θ s x) fs) (bySite P C θ s fs) (θ s) := by
  have e : (fun x => stateActivity P C (Function.update θ s x) fs)
      = fun x => stateActivity P C θ (fs.filter fun f => f.speciesSite ≠ s) * x ^ totalCoef s fs := by
    funext x; exact stateActivity_site h x
  rw [e]
  refine ((hasDerivAt_pow (totalCoef s fs) (θ s)).const_mul _).congr_deriv ?_
  unfold bySite
  ring

open Classical in
/-- What the lost sign amounts to in one term. -/
noncomputable def termTurn (kf kr : List ℝ) (P C θ : Str → ℝ) (b s : Str) (t : Bool × Term) : ℝ :=
  if t.1 = false ∧ (termPieces (K := ℝ) t.2).any (Piece.isTheta s) = true ∧
      (termPieces (K := ℝ) t.2).any (Piece.isTheta b) = true
  then deriv (fun x => vals kf kr P C (Function.update θ s x) (termPieces t.2)) (θ s) else 0

/-- The derivative of a sum of terms, with what the lost signs amount to. -/
theorem poly_derivative_all {o : MFOwner ℝ} {total P C v : Str → ℝ} (hr : Ready o total P C) (kf kr : List ℝ)
    {b s : Str} (hb : b ∈ o.net.ads) (hs : s ∈ o.net.sites) (hon : OnSite b s) (env : ℝ → Env ℝ)
    (henv : ∀ t, (env t).kf = kf ∧ (env t).kr = kr ∧ EnvOk o total P C (Function.update v b t) (env t))
    (q : Poly) (hq : ∀ t ∈ q, TextOk o.net kf kr (termPieces t.2)) :
    ∃ (F : ℝ → ℝ) (d : List (Bool × List (Piece ℝ))) (D : ℝ), (∀ t, evalPoly (env t) q = .ok (F t)) ∧
      polyDeriv o b q = .ok d ∧
      evalDerived (env (v b)) d = .ok (D - 2 * (q.map (termTurn kf kr P C (coverage o.net total v) b s)).sum) ∧
      HasDerivAt F D (v b) := by
  have hnd := ads_nodup hr.parse
  have hsn := sites_disjoint hr.parse s hs
  have hbs : b ≠ s := fun e => hsn (e ▸ hb)
  have hupd : Function.update v b (v b) = v := Function.update_eq_self b v
  obtain ⟨he1, he2, he3⟩ := henv (v b)
  rw [hupd] at he3
  induction q with
  | nil =>
    refine ⟨fun _ => 0, [], 0, fun t => rfl, rfl, by simp [evalDerived, bind, Except.bind, pure, Except.pure], hasDerivAt_const _ _⟩
  | cons t q ih =>
    obtain ⟨F, d, D, h1, h2, h3, h4⟩ := ih fun u hu => hq u (by simp [hu])
    obtain ⟨sg, T⟩ := t
    have hT := hq (sg, T) (by simp)
    obtain ⟨L, R, p, m, l1, l2, l3, l4, l5⟩ := totalDeriv_ok (v := v) hr kf kr hb hs hon hT
    have hval : ∀ t, evalTerm (env t) T = .ok (R * t ^ p * (coverage o.net total v s + v b - t) ^ m) := by
      intro t
      obtain ⟨a1, a2, a3⟩ := henv t
      obtain ⟨c1, c2, c3⟩ := coverage_update total v hb hnd hsn hon t
      rw [evalTerm_vals a3 (by rw [a1, a2]; exact hT), a1, a2, l3 _ c3, c1, c2]
    have hder := hasDerivAt_form R (coverage o.net total v s + v b) (v b) p m
    have hcb : coverage o.net total v b = v b := by unfold coverage; rw [if_pos hb]
    rw [add_sub_cancel_right] at hder
    have hprod : ∀ x : List (Piece ℝ), (∀ y ∈ x, PieceOk o.net kf kr y) →
        (x.mapM (evalPiece (env (v b)))) = .ok (x.map (pieceVal kf kr P C (coverage o.net total v))) := by
      intro x hx
      have := evalProduct he3 (l := x) (by rw [he1, he2]; exact hx)
      rw [he1, he2] at this
      exact this
    have hpe : ∀ t, evalPoly (env t) ((sg, T) :: q)
        = .ok ((if sg then R * t ^ p * (coverage o.net total v s + v b - t) ^ m
          else -(R * t ^ p * (coverage o.net total v s + v b - t) ^ m)) + F t) := by
      intro t
      have := h1 t
      unfold evalPoly at this ⊢
      rw [bind_ok] at this ⊢
      obtain ⟨xs, e1, e2⟩ := this
      refine ⟨(if sg then R * t ^ p * (coverage o.net total v s + v b - t) ^ m
          else -(R * t ^ p * (coverage o.net total v s + v b - t) ^ m)) :: xs, ?_, ?_⟩
      · exact mapM_cons_ok (by simp only [hval t, bind, Except.bind, pure, Except.pure]) e1
      · rw [pure_ok] at e2 ⊢
        rw [List.sum_cons, e2]
    have hpd : ∀ L', signFirst sg L = L' →
        polyDeriv o b ((sg, T) :: q) = .ok (L' ++ d) := by
      intro L' hL'
      unfold polyDeriv at h2 ⊢
      rw [bind_ok] at h2 ⊢
      obtain ⟨ds, e1, e2⟩ := h2
      refine ⟨L' :: ds, ?_, ?_⟩
      · exact mapM_cons_ok (by rw [← hL']; simp only [l1, bind, Except.bind, pure, Except.pure]; cases L <;> rfl) e1
      · rw [pure_ok] at e2 ⊢
        rw [List.flatten_cons, e2]
    have hed : ∀ L' xs, L'.mapM (fun t : Bool × List (Piece ℝ) => do
        let ys ← t.2.mapM (evalPiece (env (v b)))
        pure (if t.1 then ys.prod else -ys.prod)) = .ok xs → evalDerived (env (v b)) (L' ++ d)
          = .ok (xs.sum + (D - 2 * (q.map (termTurn kf kr P C (coverage o.net total v) b s)).sum)) := by
      intro L' xs hL'
      unfold evalDerived at h3 ⊢
      rw [bind_ok] at h3 ⊢
      obtain ⟨ys, e1, e2⟩ := h3
      refine ⟨xs ++ ys, mapM_app_ok hL' e1, ?_⟩
      rw [pure_ok] at e2 ⊢
      rw [List.sum_append, e2]
    by_cases hbt : (termPieces (K := ℝ) T).any (Piece.isTheta s) = true ∧ (termPieces (K := ℝ) T).any (Piece.isTheta b) = true
    · obtain ⟨x, y, rfl, vx, vy⟩ := l5 hbt
      have hturn : deriv (fun x => vals kf kr P C (Function.update (coverage o.net total v) s x) (termPieces T))
          (coverage o.net total v s) = vals kf kr P C (coverage o.net total v) y := by
        have e : (fun x => vals kf kr P C (Function.update (coverage o.net total v) s x) (termPieces T))
            = fun x => R * v b ^ p * x ^ m := by
          funext x
          rw [l3 _ (fun z _ hz => Function.update_of_ne hz _ _), Function.update_of_ne hbs, Function.update_self, hcb]
        rw [e, ((hasDerivAt_pow m (coverage o.net total v s)).const_mul _).deriv, vy, hcb]
        ring
      cases sg with
      | true =>
        have ht0 : termTurn kf kr P C (coverage o.net total v) b s (true, T) = 0 := by
          unfold termTurn; rw [if_neg (by simp)]
        refine ⟨_, _, _, hpe, hpd [(true, x), (false, y)] rfl, ?_, hder.add h4⟩
        rw [hed _ [vals kf kr P C (coverage o.net total v) x, - vals kf kr P C (coverage o.net total v) y]]
        · congr 1
          simp only [List.map_cons, List.sum_cons, List.sum_nil, vx, vy, hcb, ht0]
          ring
        · simp only [List.mapM_cons, List.mapM_nil, bind, Except.bind, pure, Except.pure,
            hprod x (l2 (true, x) (by simp)), hprod y (l2 (false, y) (by simp))]
          rfl
      | false =>
        have ht0 : termTurn kf kr P C (coverage o.net total v) b s (false, T)
            = vals kf kr P C (coverage o.net total v) y := by
          unfold termTurn; rw [if_pos ⟨rfl, hbt⟩, hturn]
        refine ⟨_, _, _, hpe, hpd [(false, x), (false, y)] rfl, ?_, hder.neg.add h4⟩
        rw [hed _ [- vals kf kr P C (coverage o.net total v) x, - vals kf kr P C (coverage o.net total v) y]]
        · congr 1
          simp only [List.map_cons, List.sum_cons, List.sum_nil, ht0, vx, vy, hcb]
          ring
        · simp only [List.mapM_cons, List.mapM_nil, bind, Except.bind, pure, Except.pure,
            hprod x (l2 (true, x) (by simp)), hprod y (l2 (false, y) (by simp))]
          rfl
    · obtain ⟨sgn, x, rfl, vx⟩ := l4 hbt
      have ht0 : termTurn kf kr P C (coverage o.net total v) b s (sg, T) = 0 := by
        unfold termTurn; rw [if_neg (fun h => hbt h.2)]
      have hev := hed [(sg == sgn, x)] [if sg == sgn then vals kf kr P C (coverage o.net total v) x
        else - vals kf kr P C (coverage o.net total v) x] (by
          simp only [List.mapM_cons, List.mapM_nil, bind, Except.bind, pure, Except.pure,
            hprod x (l2 (sgn, x) (by simp))]
          rfl)
      cases sg with
      | true =>
        refine ⟨_, _, _, hpe, hpd [(true == sgn, x)] rfl, ?_, hder.add h4⟩
        rw [hev]
        congr 1
        rw [hcb] at vx
        rw [← vx, List.map_cons, List.sum_cons, ht0]
        cases sgn <;> simp <;> ring
      | false =>
        refine ⟨_, _, _, hpe, hpd [(false == sgn, x)] rfl, ?_, hder.neg.add h4⟩
        rw [hev]
        congr 1
        rw [hcb] at vx
        rw [← vx, List.map_cons, List.sum_cons, ht0]
        cases sgn <;> simp <;> ring

/-- The terms of one reaction in the equation of an adsorbate. -/
def rxnTerms (a : Str) (i : Nat) (states : List (List Formula)) : Poly :=
  match findAds a states, states.head?, states.getLast? with
  | some (0, n), some is, some fs => [(true, ⟨n, false, i, fs.map factorOf⟩), (false, ⟨n, true, i, is.map factorOf⟩)]
  | some (_ + 1, n), some is, some fs => [(true, ⟨n, true, i, is.map factorOf⟩), (false, ⟨n, false, i, fs.map factorOf⟩)]
  | _, _, _ => []

theorem adsorbateDtheta_flat {o : MFOwner ℝ} (h : parseNetwork o.rxns = .ok o.net) (hnd : o.rxns.Nodup) {a : Str}
    (ha : a ∈ o.net.ads) :
    adsorbateDtheta o a = .ok ((List.range o.rxns.length).flatMap fun i => rxnTerms a i ((o.net.rxns[i]?).getD [])) := by
  have single : ∀ i (hi : i < o.rxns.length), ∃ x, elementaryDtheta o a o.rxns[i] = .ok x ∧
      (match x with
        | none => []
        | some (inc, dec) => [(true, inc), (false, dec)]) = rxnTerms a i ((o.net.rxns[i]?).getD []) := by
    intro i hi
    obtain ⟨st, is, fs, e1, e2, e3, e4, e5, o1, o2⟩ := states_ok h hi
    have hix : o.rxns.idxOf o.rxns[i] = i := hnd.idxOf_getElem i hi
    unfold elementaryDtheta
    rw [if_neg (by simpa using ha), e1, e2, Option.getD_some]
    simp only [bind, Except.bind]
    unfold rxnTerms
    rw [e4, e5]
    cases hfa : findAds a st with
    | none => exact ⟨none, rfl, rfl⟩
    | some x =>
      obtain ⟨j, n⟩ := x
      simp only [rateTerms_ok h hi e1 e4 e5, hix]
      cases j with
      | zero => exact ⟨_, rfl, rfl⟩
      | succ j => exact ⟨_, rfl, rfl⟩
  obtain ⟨l, hl⟩ := mapM_ok_exists (f := elementaryDtheta o a) (l := o.rxns) (by
    intro rxn hx
    obtain ⟨i, hi, rfl⟩ := List.mem_iff_getElem.mp hx
    obtain ⟨x, hx, -⟩ := single i hi
    exact ⟨x, hx⟩)
  obtain ⟨ll, lg⟩ := mapM_ok_inv hl
  unfold adsorbateDtheta
  rw [hl]
  simp only [bind, Except.bind, pure, Except.pure]
  congr 1
  have hrange : l = (List.range o.rxns.length).map fun i => (l[i]?).getD none := by
    apply List.ext_getElem
    · simp [ll]
    · intro i h1 h2
      simp [List.getElem?_eq_getElem h1]
  rw [hrange, List.flatMap_map]
  apply List.flatMap_congr
  intro i hi
  have hi := List.mem_range.mp hi
  obtain ⟨x, hx, hv⟩ := single i hi
  have := lg i hi (by omega)
  rw [hx] at this
  rw [List.getElem?_eq_getElem (by omega), ← Except.ok.inj this]
  exact hv

/-- The text of an end state names the adsorbate `b` or the site `s` exactly if the state does. -/
theorem any_isTheta {o : MFOwner ℝ} {total P C : Str → ℝ} (hr : Ready o total P C) {states : List (List Formula)}
    (hc : RateClean states) {fs : List Formula} (hfs : states.head? = some fs ∨ states.getLast? = some fs)
    (hocc : ∀ f ∈ fs, OccursIn o.rxns f) {x : Str} (hx : x ∈ o.net.siteCols) (n i : Nat) (fwd : Bool) :
    (termPieces (K := ℝ) ⟨n, fwd, i, fs.map factorOf⟩).any (Piece.isTheta x) = true ↔ ∃ f ∈ fs, f.speciesSite = x := by
  have key : ∀ f ∈ fs, (Piece.isTheta x (.fac (factorOf f) : Piece ℝ) = true ↔ f.speciesSite = x) := by
    intro f hf
    have once := C08_listed_exactly_once _ _ hr.parse f (hocc f hf)
    have hfo := (facOk_of hr (hocc f hf) (hc.1.1 fs hfs f hf).1 (hc.1.2 fs hfs f hf) (hc.2 fs hfs f hf)).2.1
    simp only [Piece.isTheta, decide_eq_true_eq]
    rw [hfo]
    refine ⟨fun h => h.2, fun e => ⟨?_, e⟩⟩
    rw [factorOf_eq]
    by_cases hst : '*' ∈ f.speciesSite
    · rw [if_pos hst]
    · rw [if_neg hst]
      rcases List.mem_append.mp hx with hs | ha
      · obtain ⟨g, -, -, -, e'⟩ := (C08_site_names _ _ hr.parse x).mp hs
        exfalso
        apply hst
        rw [e, e']
        simp
      · have hk := ((once .ads).mp (by rw [e]; exact ha)).1
        have hg : f.site ≠ ['g'] := by
          intro h; rw [show specKind f.species f.site = .gas by simp [specKind, h]] at hk; cases hk
        have hl : f.site ≠ ['l'] := by
          intro h; rw [show specKind f.species f.site = .liquid by simp [specKind, h]] at hk; cases hk
        rw [if_neg hg, if_neg hl]
  unfold termPieces
  rw [List.any_append, List.any_cons]
  have h1 : (if n = 1 then [] else [Piece.num n] : List (Piece ℝ)).any (Piece.isTheta x) = false := by
    split <;> simp [Piece.isTheta]
  simp only [h1, Piece.isTheta, Bool.false_or]
  rw [List.any_eq_true]
  constructor
  · rintro ⟨y, hy, ht⟩
    simp only [List.map_map, List.mem_map, Function.comp] at hy
    obtain ⟨f, hf, rfl⟩ := hy
    exact ⟨f, hf, (key f hf).mp ht⟩
  · rintro ⟨f, hf, e⟩
    refine ⟨.fac (factorOf f), ?_, (key f hf).mpr e⟩
    simp only [List.map_map, List.mem_map, Function.comp]
    exact ⟨f, hf, rfl⟩

/-- The value of the text of an end state. -/
theorem vals_state {P C θ : Str → ℝ} {states : List (List Formula)}
    (hc : RateClean states) {fs : List Formula} (hfs : states.head? = some fs ∨ states.getLast? = some fs)
    (kf kr : List ℝ) (n i : Nat) (fwd : Bool) {κ : ℝ}
    (hk : (if fwd then kf else kr)[i]? = some κ) :
    vals kf kr P C θ (termPieces ⟨n, fwd, i, fs.map factorOf⟩) = n * (κ * stateActivity P C θ fs) := by
  have key : ∀ f ∈ fs, facVal P C θ (factorOf f) = specAct P C θ f ^ f.stoich := by
    intro f hf
    have h3 := hc.2 fs hfs f hf
    rw [factorOf_eq]
    unfold specAct
    by_cases hg : f.site = ['g']
    · have hk : specKind f.species f.site = .gas := by simp [specKind, hg]
      rw [if_neg (h3 (Or.inl hk)), if_pos hg, hk]; rfl
    · by_cases hl : f.site = ['l']
      · have hk : specKind f.species f.site = .liquid := by simp [specKind, hl]
        rw [if_neg (h3 (Or.inr hk)), if_neg hg, if_pos hl, hk]; rfl
      · rw [if_neg hg, if_neg hl, ite_self]
        cases hk : specKind f.species f.site with
        | gas => simp only [specKind, hg, hl, if_false] at hk; split at hk <;> [cases hk; (split at hk <;> cases hk)]
        | liquid => simp only [specKind, hg, hl, if_false] at hk; split at hk <;> [cases hk; (split at hk <;> cases hk)]
        | ts => rfl
        | ads => rfl
        | empty => rfl
  unfold termPieces vals
  rw [List.map_append, List.prod_append, List.map_cons, List.prod_cons, List.map_map, List.map_map]
  simp only [pieceVal, hk, Option.getD_some]
  have h1 : (List.map (pieceVal kf kr P C θ) (if n = 1 then [] else [Piece.num n])).prod = (n : ℝ) := by
    split
    · rename_i h; simp [h]
    · simp [pieceVal]
  rw [h1, stateActivity]
  congr 2
  apply congrArg
  apply List.map_congr_left
  intro f hf
  exact key f hf

/-- What the lost signs of one reaction amount to. -/
theorem rxnTerms_turn {o : MFOwner ℝ} {total P C θ : Str → ℝ} (hr : Ready o total P C)
    (hc : ∀ states ∈ o.net.rxns, RateClean states) (kf kr : List ℝ) {a b s : Str}
    (hb : b ∈ o.net.ads) (hs : s ∈ o.net.sites) {i : Nat} (hi : i < o.rxns.length) {κf κr : ℝ}
    (hf : kf[i]? = some κf) (hk : kr[i]? = some κr) :
    ((rxnTerms a i ((o.net.rxns[i]?).getD [])).map (termTurn kf kr P C θ b s)).sum
      = turnedSign P C θ b s κf κr (codeCoef a ((o.net.rxns[i]?).getD [])) ((o.net.rxns[i]?).getD []) := by
  obtain ⟨st, is, fs, e1, e2, e3, e4, e5, o1, o2⟩ := states_ok hr.parse hi
  rw [e2, Option.getD_some]
  have hcl := clean_at hc e2
  have hterm : ∀ (gs : List Formula) (n : Nat) (fwd : Bool) (κ : ℝ), (st.head? = some gs ∨ st.getLast? = some gs) →
      (∀ f ∈ gs, OccursIn o.rxns f) → (if fwd then kf else kr)[i]? = some κ →
      termTurn kf kr P C θ b s (false, ⟨n, fwd, i, gs.map factorOf⟩)
        = open Classical in if BothIn b s gs then (n : ℝ) * (κ * bySite P C θ s gs) else 0 := by
    intro gs n fwd κ hgs hocc hκ
    have hiff : ((false = false) ∧ (termPieces (K := ℝ) ⟨n, fwd, i, gs.map factorOf⟩).any (Piece.isTheta s) = true ∧
      (termPieces (K := ℝ) ⟨n, fwd, i, gs.map factorOf⟩).any (Piece.isTheta b) = true) ↔ BothIn b s gs := by
      rw [any_isTheta hr hcl hgs hocc (List.mem_append_left _ hs), any_isTheta hr hcl hgs hocc (List.mem_append_right _ hb)]
      unfold BothIn
      tauto
    have hkind : ∀ f ∈ gs, f.speciesSite = s → specKind f.species f.site ≠ .gas ∧ specKind f.species f.site ≠ .liquid := by
      intro f hf e
      obtain ⟨g, -, -, -, e'⟩ := (C08_site_names _ _ hr.parse s).mp hs
      have hstar : '*' ∈ f.speciesSite := by rw [e, e']; simp
      exact ⟨fun h => hcl.2 gs hgs f hf (Or.inl h) hstar, fun h => hcl.2 gs hgs f hf (Or.inr h) hstar⟩
    unfold termTurn
    by_cases hB : BothIn b s gs
    · rw [if_pos (hiff.mpr hB), if_pos hB]
      have e : (fun x => vals kf kr P C (Function.update θ s x) (termPieces ⟨n, fwd, i, gs.map factorOf⟩))
          = fun x => (n : ℝ) * (κ * stateActivity P C (Function.update θ s x) gs) := by
        funext x
        exact vals_state hcl hgs kf kr n i fwd hκ
      rw [show ((false, (⟨n, fwd, i, gs.map factorOf⟩ : Term)) : Bool × Term).2 = ⟨n, fwd, i, gs.map factorOf⟩ from rfl, e]
      exact (((bySite_deriv hkind).const_mul κ).const_mul (n : ℝ)).deriv
    · rw [if_neg (fun h => hB (hiff.mp h)), if_neg hB]
  have htrue : ∀ T, termTurn kf kr P C θ b s (true, T) = 0 := by
    intro T; unfold termTurn; rw [if_neg (by simp)]
  unfold rxnTerms codeCoef turnedSign
  rw [e4, e5]
  cases hfa : findAds a st with
  | none =>
    simp
  | some x =>
    obtain ⟨j, n⟩ := x
    cases j with
    | zero =>
      simp only [List.map_cons, List.map_nil, List.sum_cons, List.sum_nil, htrue, zero_add, add_zero]
      rw [hterm is n true κf (Or.inl e4) o1 (by simpa using hf)]
      by_cases hn : n = 0
      · subst hn; simp
      · have hneg : -(n : Int) < 0 := by omega
        simp only [if_pos hneg]
        simp
    | succ j =>
      simp only [List.map_cons, List.map_nil, List.sum_cons, List.sum_nil, htrue, zero_add, add_zero]
      rw [hterm fs n false κr (Or.inr e5) o2 (by simpa using hk)]
      have hpos : ¬ (n : Int) < 0 := by omega
      simp only [if_neg hpos]
      simp

/-- **C28** What the entries of the analytical Jacobian are, also where an adsorbate stands next to its own empty site: the
derivative of the coverage equation, less twice the change through the empty site of all terms that take the adsorbate of
the row away and contain the adsorbate of the column together with its empty site. -/
theorem C28_error (o : MFOwner ℝ) (total P C : Str → ℝ) (h : Ready o total P C)
    (hc : ∀ states ∈ o.net.rxns, RateClean states)
    (hsim : ∀ states ∈ o.net.rxns, ∀ fs, (states.head? = some fs ∨ states.getLast? = some fs) → SimpleState fs)
    (hrx : o.rxns.Nodup)
    (kf kr : List ℝ) (hkf : kf.length = o.rxns.length) (hkr : kr.length = o.rxns.length) (v : Str → ℝ) :
    ∃ (J : List (List ℝ)) (c : Str → List (List Formula) → Int), (∀ a states, CountsAs a states (c a states)) ∧
      analyticalJacobian o (kf, kr) (o.net.ads.map v) = .ok J ∧ J.length = o.net.ads.length ∧
      ∀ i (hi : i < o.net.ads.length), ∃ row, J[i]? = some row ∧ row.length = o.net.ads.length ∧
        ∀ j (hj : j < o.net.ads.length), ∃ (D : ℝ) (F : ℝ → ℝ) (s : Str), OnSite o.net.ads[j] s ∧
          (∀ t, ∃ ds, steadyStateFunction o (kf, kr) ((o.net.ads.map v).set j t) = .ok ds ∧ ds[i]? = some (F t)) ∧
          HasDerivAt F D (v o.net.ads[j]) ∧
          row[j]? = some (D - 2 * ((List.range o.rxns.length).map fun r =>
            turnedSign P C (coverage o.net total v) o.net.ads[j] s (kf[r]?.getD 0) (kr[r]?.getD 0)
              (c o.net.ads[i] (o.net.rxns[r]?.getD [])) (o.net.rxns[r]?.getD [])).sum) := by
  have hnd := ads_nodup h.parse
  let qof : Str → Poly := fun a => (List.range o.rxns.length).flatMap fun i => rxnTerms a i ((o.net.rxns[i]?).getD [])
  have hqs : o.net.ads.mapM (adsorbateDtheta o) = .ok (o.net.ads.map qof) :=
    mapM_ok_map fun a ha => adsorbateDtheta_flat h.parse hrx ha
  have entry : ∀ a ∈ o.net.ads, ∀ b ∈ o.net.ads, ∃ (F : ℝ → ℝ) (d : List (Bool × List (Piece ℝ))) (D : ℝ) (s : Str),
      OnSite b s ∧
      (∀ t env, mkEnv o (kf, kr) (o.net.ads.map (Function.update v b t)) = .ok env →
        evalPoly env (qof a) = .ok (F t)) ∧
      polyDeriv o b (qof a) = .ok d ∧
      (∀ env, mkEnv o (kf, kr) (o.net.ads.map v) = .ok env → evalDerived env d = .ok (D - 2 * ((List.range o.rxns.length).map fun r =>
            turnedSign P C (coverage o.net total v) b s (kf[r]?.getD 0) (kr[r]?.getD 0)
              (codeCoef a (o.net.rxns[r]?.getD [])) (o.net.rxns[r]?.getD [])).sum)) ∧ HasDerivAt F D (v b) := by
    intro a ha b hb
    obtain ⟨s, hs, hon⟩ := ads_onSite h.parse hb
    have henv : ∀ t, ∃ env, mkEnv o (kf, kr) (o.net.ads.map (Function.update v b t)) = .ok env ∧
        env.kf = kf ∧ env.kr = kr ∧ EnvOk o total P C (Function.update v b t) env := by
      intro t
      obtain ⟨env, e1, e2, e3, e4⟩ := mkEnv_ok h (Function.update v b t) (kf, kr)
      exact ⟨env, e1, e2, e3, e4⟩
    choose env he using henv
    obtain ⟨q, hq1, hq2⟩ := adsorbateDtheta_terms h.parse ha
    rw [adsorbateDtheta_flat h.parse hrx ha] at hq1
    have hqe : qof a = q := Except.ok.inj hq1
    obtain ⟨F, d, D, h1, h2, h3, h4⟩ := poly_derivative_all h kf kr hb hs hon env (fun t => (he t).2) q (by
      intro t ht
      obtain ⟨j, hj, st, is, fs, n, e1, e2, e3, e4, o1, o2, hcase⟩ := hq2 t ht
      have hst := List.mem_of_getElem? e2
      have hlt := (idxOf_getElem?_same hj).1
      rcases hcase with ⟨hT, -⟩ | ⟨hT, -⟩
      · rw [hT]
        exact (textOk_of h kf kr (hc st hst) (Or.inl e3) o1 (hsim st hst is (Or.inl e3)) n
          (o.rxns.idxOf o.rxns[j]) true (by rw [if_pos rfl]; omega)).1
      · rw [hT]
        exact (textOk_of h kf kr (hc st hst) (Or.inr e4) o2 (hsim st hst fs (Or.inr e4)) n
          (o.rxns.idxOf o.rxns[j]) false (by simp; omega)).1)
    have hsum : (q.map (termTurn kf kr P C (coverage o.net total v) b s)).sum = ((List.range o.rxns.length).map fun r =>
            turnedSign P C (coverage o.net total v) b s (kf[r]?.getD 0) (kr[r]?.getD 0)
              (codeCoef a (o.net.rxns[r]?.getD [])) (o.net.rxns[r]?.getD [])).sum := by
      rw [← hqe]
      simp only [qof]
      rw [List.map_flatMap, sum_flatMap]
      congr 1
      apply List.map_congr_left
      intro r hr
      have hr := List.mem_range.mp hr
      have g1 : kf[r]? = some kf[r] := List.getElem?_eq_getElem (by omega)
      have g2 : kr[r]? = some kr[r] := List.getElem?_eq_getElem (by omega)
      rw [g1, g2]
      exact rxnTerms_turn h hc kf kr hb hs hr g1 g2
    refine ⟨F, d, D, s, hon, ?_, by rw [hqe]; exact h2, ?_, h4⟩
    · intro t e he'
      rw [(he t).1] at he'
      rw [← Except.ok.inj he', hqe]; exact h1 t
    · intro e he'
      have := (he (v b)).1
      rw [Function.update_eq_self, he'] at this
      rw [Except.ok.inj this, ← hsum]; exact h3
  obtain ⟨env, e1, -⟩ := mkEnv_ok h v (kf, kr)
  obtain ⟨J, hJ⟩ := mapM_ok_exists (f := fun q => (o.net.ads.mapM fun a => do
      let d ← polyDeriv o a q
      evalDerived env d : Py (List ℝ))) (l := o.net.ads.map qof) (by
    intro q hq
    obtain ⟨a, ha, rfl⟩ := List.mem_map.mp hq
    apply mapM_ok_exists
    intro b hb
    obtain ⟨F, d, D, s, -, -, k2, k3, -⟩ := entry a ha b hb
    exact ⟨_, by rw [k2]; exact k3 env e1⟩)
  obtain ⟨Jl, Jg⟩ := mapM_ok_inv hJ
  rw [List.length_map] at Jl
  refine ⟨J, codeCoef, codeCoef_counts, ?_, Jl, ?_⟩
  · unfold analyticalJacobian
    rw [hqs]
    simp only [bind, Except.bind]
    rw [if_neg (by simp)]
    simp only [e1]
    exact hJ
  · intro i hi
    have hrowi := Jg i (by simpa using hi) (by omega)
    obtain ⟨rl, rg⟩ := mapM_ok_inv hrowi
    refine ⟨J[i], List.getElem?_eq_getElem _, rl, ?_⟩
    intro j hj
    obtain ⟨F, d, D, s, hon, k1, k2, k3, k4⟩ := entry _ (List.getElem_mem (l := o.net.ads) (n := i) hi) _
      (List.getElem_mem (l := o.net.ads) (n := j) hj)
    refine ⟨D, F, s, hon, ?_, k4, ?_⟩
    · intro t
      have hset : (o.net.ads.map v).set j t = o.net.ads.map (Function.update v o.net.ads[j] t) := by
        apply List.ext_getElem
        · simp
        · intro m m1 m2
          rw [List.getElem_set, List.getElem_map, List.getElem_map]
          by_cases e : j = m
          · subst e; rw [if_pos rfl, Function.update_self]
          · rw [if_neg e, Function.update_of_ne]
            intro e'
            exact e ((List.Nodup.getElem_inj_iff hnd).mp e').symm
      rw [hset]
      obtain ⟨envt, f1, -⟩ := mkEnv_ok h (Function.update v o.net.ads[j] t) (kf, kr)
      obtain ⟨ys, hys⟩ := mapM_ok_exists (f := evalPoly envt) (l := o.net.ads.map qof) (by
        intro q hq
        obtain ⟨a, ha, rfl⟩ := List.mem_map.mp hq
        obtain ⟨F', d', D', s', -, k1', -⟩ := entry a ha _ (List.getElem_mem (l := o.net.ads) (n := j) hj)
        exact ⟨_, k1' t envt f1⟩)
      obtain ⟨yl, yg⟩ := mapM_ok_inv hys
      rw [List.length_map] at yl
      refine ⟨ys, ?_, ?_⟩
      · unfold steadyStateFunction
        rw [f1]
        simp only [bind, Except.bind, hqs]
        exact hys
      · have := yg i (by simpa using hi) (by omega)
        rw [List.getElem_map, k1 t envt f1] at this
        rw [List.getElem?_eq_getElem (by omega), ← Except.ok.inj this]
    · have := rg j hj (by omega)
      rw [List.getElem_map, k2] at this
      have := (k3 env e1).symm.trans this
      rw [List.getElem?_eq_getElem (by omega), ← Except.ok.inj this]

theorem endActivity_pos {P C θ : Str → ℝ} {fs : List Formula} (h : ∀ f ∈ fs, 0 < specAct P C θ f) :
    0 < stateActivity P C θ fs := by
  unfold stateActivity
  apply List.prod_pos
  intro x hx
  obtain ⟨f, hf, rfl⟩ := List.mem_map.mp hx
  exact pow_pos (h f hf) _

theorem bySite_pos {P C θ : Str → ℝ} {s : Str} {fs : List Formula} (hs : 0 < θ s) (h : ∀ f ∈ fs, 0 < specAct P C θ f)
    (hsim : SimpleState fs) (hm : ∃ f ∈ fs, f.speciesSite = s) : 0 < bySite P C θ s fs := by
  unfold bySite
  have h1 : 0 < totalCoef s fs := by
    obtain ⟨f, hf, e⟩ := hm
    have hle : f.stoich ≤ totalCoef s fs := by
      unfold totalCoef
      exact List.single_le_sum (by simp) _ (List.mem_map.mpr ⟨f, List.mem_filter.mpr ⟨hf, by simpa using e⟩, rfl⟩)
    have := (hsim.2 f hf).1
    omega
  have h2 : 0 < stateActivity P C θ (fs.filter fun f => f.speciesSite ≠ s) :=
    endActivity_pos fun f hf => h f (List.mem_filter.mp hf).1
  positivity

/-- The reaction takes no adsorbate `a` away by a term with `b` and its own empty site `s`. -/
def SignKept (a b s : Str) (states : List (List Formula)) : Prop :=
  ∀ z, CountsAs a states z →
    (z < 0 → ∀ is, states.head? = some is → ¬ BothIn b s is) ∧
    (0 < z → ∀ fs, states.getLast? = some fs → ¬ BothIn b s fs)

/-- **C28** Where all species of the reactions are present and all constants are positive, no entry of the analytical
Jacobian is larger than the derivative, and an entry is the derivative exactly if no reaction takes the adsorbate of the row
away by a term with the adsorbate of the column and its own empty site. -/
theorem C28_iff (o : MFOwner ℝ) (total P C : Str → ℝ) (h : Ready o total P C)
    (hc : ∀ states ∈ o.net.rxns, RateClean states)
    (hsim : ∀ states ∈ o.net.rxns, ∀ fs, (states.head? = some fs ∨ states.getLast? = some fs) → SimpleState fs)
    (hrx : o.rxns.Nodup)
    (kf kr : List ℝ) (hkf : kf.length = o.rxns.length) (hkr : kr.length = o.rxns.length)
    (pf : ∀ k ∈ kf, 0 < k) (pr : ∀ k ∈ kr, 0 < k) (v : Str → ℝ)
    (hpos : ∀ states ∈ o.net.rxns, ∀ fs, (states.head? = some fs ∨ states.getLast? = some fs) →
      ∀ f ∈ fs, 0 < specAct P C (coverage o.net total v) f)
    (hfree : ∀ s ∈ o.net.sites, 0 < coverage o.net total v s) :
    ∃ (J : List (List ℝ)), analyticalJacobian o (kf, kr) (o.net.ads.map v) = .ok J ∧
      ∀ i (hi : i < o.net.ads.length) j (hj : j < o.net.ads.length), ∃ (D E : ℝ) (F : ℝ → ℝ) (s : Str),
          OnSite o.net.ads[j] s ∧
          (∀ t, ∃ ds, steadyStateFunction o (kf, kr) ((o.net.ads.map v).set j t) = .ok ds ∧ ds[i]? = some (F t)) ∧
          HasDerivAt F D (v o.net.ads[j]) ∧ (∃ row, J[i]? = some row ∧ row[j]? = some E) ∧ E ≤ D ∧
          (E = D ↔ ∀ states ∈ o.net.rxns, SignKept o.net.ads[i] o.net.ads[j] s states) := by
  obtain ⟨J, c, hcount, hJ, -, hent⟩ := C28_error o total P C h hc hsim hrx kf kr hkf hkr v
  refine ⟨J, hJ, ?_⟩
  intro i hi j hj
  obtain ⟨row, hrow, -, hcol⟩ := hent i hi
  obtain ⟨D, F, s, hon, hF, hD, hE⟩ := hcol j hj
  refine ⟨D, _, F, s, hon, hF, hD, ⟨row, hrow, hE⟩, ?_⟩
  obtain ⟨s', hs', hon'⟩ := ads_onSite h.parse (List.getElem_mem (l := o.net.ads) (n := j) hj)
  have hs : s ∈ o.net.sites := by rw [onSite_unique hon hon']; exact hs'
  have hlen := length_rxns h.parse
  -- each part
  have hpart : ∀ r (hr : r < o.rxns.length),
      0 ≤ turnedSign P C (coverage o.net total v) o.net.ads[j] s (kf[r]?.getD 0) (kr[r]?.getD 0)
        (c o.net.ads[i] (o.net.rxns[r]?.getD [])) (o.net.rxns[r]?.getD []) ∧
      (turnedSign P C (coverage o.net total v) o.net.ads[j] s (kf[r]?.getD 0) (kr[r]?.getD 0)
        (c o.net.ads[i] (o.net.rxns[r]?.getD [])) (o.net.rxns[r]?.getD []) = 0 ↔
        SignKept o.net.ads[i] o.net.ads[j] s (o.net.rxns[r]'(by omega))) := by
    intro r hr
    have hmem := List.getElem_mem (l := o.net.rxns) (n := r) (by omega)
    rw [List.getElem?_eq_getElem (show r < o.net.rxns.length by omega), Option.getD_some,
      List.getElem?_eq_getElem (show r < kf.length by omega), List.getElem?_eq_getElem (show r < kr.length by omega),
      Option.getD_some, Option.getD_some]
    have qf := pf _ (List.getElem_mem (l := kf) (n := r) (by omega))
    have qr := pr _ (List.getElem_mem (l := kr) (n := r) (by omega))
    generalize hst : o.net.rxns[r]'(show r < o.net.rxns.length by omega) = st at hmem ⊢
    have hz : ∀ z, CountsAs o.net.ads[i] st z ↔ z = c o.net.ads[i] st := by
      intro z
      constructor
      · intro hz; rw [countsAs_unique hz, countsAs_unique (hcount _ _)]
      · rintro rfl; exact hcount _ _
    have hsk : SignKept o.net.ads[i] o.net.ads[j] s st ↔
        (c o.net.ads[i] st < 0 → ∀ is, st.head? = some is → ¬ BothIn o.net.ads[j] s is) ∧
        (0 < c o.net.ads[i] st → ∀ fs, st.getLast? = some fs → ¬ BothIn o.net.ads[j] s fs) := by
      unfold SignKept
      constructor
      · intro hh; exact hh _ (hcount _ _)
      · intro hh z hz'; rw [(hz z).mp hz']; exact hh
    rw [hsk]
    generalize c o.net.ads[i] st = z
    have hby : ∀ fs, (st.head? = some fs ∨ st.getLast? = some fs) → BothIn o.net.ads[j] s fs →
        0 < bySite P C (coverage o.net total v) s fs := fun fs hfs hB =>
      bySite_pos (hfree s hs) (hpos st hmem fs hfs) (hsim st hmem fs hfs) hB.2
    unfold turnedSign
    rcases lt_trichotomy z 0 with hneg | hzero | hp
    · simp only [if_pos hneg]
      cases hh : st.head? with
      | none => exact ⟨le_refl _, by simp; omega⟩
      | some is =>
        simp only
        by_cases hB : BothIn o.net.ads[j] s is
        · rw [if_pos hB]
          have hz' : (0:ℝ) < |(z : ℝ)| := abs_pos.mpr (by exact_mod_cast hneg.ne)
          have := mul_pos hz' (mul_pos qf (hby is (Or.inl hh) hB))
          refine ⟨this.le, ⟨fun e => absurd e this.ne', fun e => absurd hB (e.1 hneg is rfl)⟩⟩
        · rw [if_neg hB]
          refine ⟨le_refl _, ⟨fun _ => ⟨fun _ is' e => ?_, fun h => by omega⟩, fun _ => rfl⟩⟩
          rw [← Option.some.inj e]; exact hB
    · subst hzero
      simp only [lt_self_iff_false, if_false]
      cases hh : st.getLast? with
      | none => simp
      | some fs => simp
    · have hn : ¬ z < 0 := by omega
      simp only [if_neg hn]
      cases hh : st.getLast? with
      | none => exact ⟨le_refl _, by simp; omega⟩
      | some fs =>
        simp only
        by_cases hB : BothIn o.net.ads[j] s fs
        · rw [if_pos hB]
          have hz' : (0:ℝ) < |(z : ℝ)| := abs_pos.mpr (by exact_mod_cast hp.ne')
          have := mul_pos hz' (mul_pos qr (hby fs (Or.inr hh) hB))
          refine ⟨this.le, ⟨fun e => absurd e this.ne', fun e => absurd hB (e.2 hp fs rfl)⟩⟩
        · rw [if_neg hB]
          refine ⟨le_refl _, ⟨fun _ => ⟨fun h => by omega, fun _ fs' e => ?_⟩, fun _ => rfl⟩⟩
          rw [← Option.some.inj e]; exact hB
  have hsum0 : ∀ (l : List Nat) (g : Nat → ℝ), (∀ r ∈ l, 0 ≤ g r) → 0 ≤ (l.map g).sum ∧ ((l.map g).sum = 0 ↔ ∀ r ∈ l, g r = 0) := by
    intro l g hg
    induction l with
    | nil => simp
    | cons r l ih =>
      obtain ⟨i1, i2⟩ := ih fun x hx => hg x (by simp [hx])
      have h0 := hg r (by simp)
      rw [List.map_cons, List.sum_cons]
      refine ⟨by positivity, ?_⟩
      rw [add_eq_zero_iff_of_nonneg h0 i1, i2]
      simp
  obtain ⟨s1, s2⟩ := hsum0 (List.range o.rxns.length) (fun r =>
      turnedSign P C (coverage o.net total v) o.net.ads[j] s (kf[r]?.getD 0) (kr[r]?.getD 0)
        (c o.net.ads[i] (o.net.rxns[r]?.getD [])) (o.net.rxns[r]?.getD [])) (fun r hr => (hpart r (List.mem_range.mp hr)).1)
  refine ⟨by linarith, ?_⟩
  constructor
  · intro e states hst
    obtain ⟨r, hr, rfl⟩ := List.mem_iff_getElem.mp hst
    have hr' : r < o.rxns.length := by omega
    exact (hpart r hr').2.mp (s2.mp (by linarith) r (List.mem_range.mpr hr'))
  · intro hall
    have : _ = (0 : ℝ) := s2.mpr fun r hr => (hpart r (List.mem_range.mp hr)).2.mpr
      (hall _ (List.getElem_mem (l := o.net.rxns) (n := r) (by have := List.mem_range.mp hr; omega)))
    linarith

/-! Both theorems apply to the dissociation of CO, at one fifth coverage of each adsorbate; and there the entry of CO for
itself is smaller than the derivative. -/

theorem exSplit_simple : ∀ states ∈ exSplit.net.rxns, ∀ fs, (states.head? = some fs ∨ states.getLast? = some fs) →
    SimpleState fs := by
  have h : ∀ states ∈ exSplit.net.rxns, ∀ fs ∈ states, simpleB fs = true := by decide
  intro st hst fs hfs
  have := h st hst fs (by
    rcases hfs with e | e
    · exact List.mem_of_mem_head? e
    · exact List.mem_of_mem_getLast? e)
  unfold simpleB at this
  simpa [SimpleState, List.all_eq_true] using this

theorem exSplit_clean : ∀ states ∈ exSplit.net.rxns, RateClean states :=
  fun st hst => rateClean_of ((by decide : ∀ st ∈ exSplit.net.rxns, rateCleanB st = true) st hst)

example : ∃ J, analyticalJacobian exSplit ([1], [2]) (exSplit.net.ads.map fun _ => 1 / 5) = .ok J := by
  obtain ⟨J, c, -, hJ, -⟩ := C28_error exSplit _ _ _ C28_dissociation_refuted.1 exSplit_clean exSplit_simple (by decide)
    [1] [2] (by decide) (by decide) (fun _ => 1 / 5)
  exact ⟨J, hJ⟩

theorem exSplit_free (v : Str → ℝ) : coverage exSplit.net (fun _ => 1) v (str! "*_s")
    = 1 - ([v (str! "CO_s"), v (str! "C_s"), v (str! "O_s")]).sum := by
  have h1 : str! "*_s" ∉ exSplit.net.ads := by decide
  have h2 : exSplit.net.ads.filter (fun a => OnSite a (str! "*_s")) = [str! "CO_s", str! "C_s", str! "O_s"] := by decide
  unfold coverage
  rw [if_neg h1, h2]
  rfl

example : ∃ J D E row, analyticalJacobian exSplit ([1], [2]) (exSplit.net.ads.map fun _ => 1 / 5) = .ok J ∧
    J[0]? = some row ∧ row[0]? = some E ∧ E < D ∧ ∃ F : ℝ → ℝ, HasDerivAt F D (1 / 5) ∧
      ∀ t, ∃ ds, steadyStateFunction exSplit ([1], [2]) ((exSplit.net.ads.map fun _ => 1 / 5).set 0 t) = .ok ds ∧ ds[0]? = some (F t) := by
  have hsites : exSplit.net.sites = [str! "*_s"] := by decide
  have hads : exSplit.net.ads = [str! "CO_s", str! "C_s", str! "O_s"] := by decide
  have hfr : 0 < coverage exSplit.net (fun _ => (1 : ℝ)) (fun _ => 1 / 5) (str! "*_s") := by
    rw [exSplit_free]; norm_num
  have hcv : ∀ a ∈ exSplit.net.ads, 0 < coverage exSplit.net (fun _ => 1) (fun _ => (1 / 5 : ℝ)) a := by
    intro a ha; unfold coverage; rw [if_pos ha]; norm_num
  have hsp : ∀ st ∈ exSplit.net.rxns, ∀ fs ∈ st, ∀ f ∈ fs, (specKind f.species f.site = .ads ∨ specKind f.species f.site = .empty) ∧
      f.speciesSite ∈ exSplit.net.sites ++ exSplit.net.ads := by decide
  obtain ⟨J, hJ, hent⟩ := C28_iff exSplit _ _ _ C28_dissociation_refuted.1 exSplit_clean exSplit_simple (by decide)
    [1] [2] (by decide) (by decide) (by simp) (by simp) (fun _ => 1 / 5) (by
      intro st hst fs hfs f hf
      have hm : fs ∈ st := by
        rcases hfs with e | e
        · exact List.mem_of_mem_head? e
        · exact List.mem_of_mem_getLast? e
      obtain ⟨hk, hn⟩ := hsp st hst fs hm f hf
      have e : specAct (fun _ => 0) (fun _ => 0) (coverage exSplit.net (fun _ => 1) (fun _ => (1 / 5 : ℝ))) f
          = coverage exSplit.net (fun _ => 1) (fun _ => 1 / 5) f.speciesSite := by
        unfold specAct; rcases hk with hk | hk <;> rw [hk]
      rw [e]
      rcases List.mem_append.mp hn with h | h
      · rw [hsites, List.mem_singleton] at h; rw [h]; exact hfr
      · exact hcv _ h) (by
      intro s hs
      rw [hsites, List.mem_singleton] at hs; rw [hs]; exact hfr)
  obtain ⟨D, E, F, s, hon, hF, hD, ⟨row, hr1, hr2⟩, hle, hiff⟩ := hent 0 (by decide) 0 (by decide)
  refine ⟨J, D, E, row, hJ, hr1, hr2, lt_of_le_of_ne hle ?_, F, hD, hF⟩
  intro e
  have h0 : exSplit.net.ads[0]'(by decide) = str! "CO_s" := by simp only [hads]; rfl
  have hs : s = str! "*_s" := onSite_unique (by rw [h0] at hon; exact hon) (by decide)
  have hst : ∃ st, exSplit.net.rxns = [st] ∧ findAds (str! "CO_s") st = some (0, 1) ∧ ∃ is, st.head? = some is ∧
      (∃ f ∈ is, f.speciesSite = str! "CO_s") ∧ ∃ f ∈ is, f.speciesSite = str! "*_s" := by
    refine ⟨_, rfl, by decide, _, rfl, by decide, by decide⟩
  obtain ⟨st, e1, e2, is, e3, e4, e5⟩ := hst
  have hk := hiff.mp e st (by rw [e1]; simp)
  rw [h0, hs] at hk
  have hz : codeCoef (str! "CO_s") st = -1 := by unfold codeCoef; rw [e2]; rfl
  exact (hk _ (codeCoef_counts _ _)).1 (by rw [hz]; decide) is e3 ⟨e4, e5⟩
end Verif
