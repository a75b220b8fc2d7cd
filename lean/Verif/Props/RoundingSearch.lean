import Verif.Model.RoundingSearch
import Verif.Props.Rounding
import Verif.Props.RatesExact
import Verif.Props.SteadyLoop
/-
C130: the search for the steady state with numbers of finite precision.
-/
namespace Verif
open Dict

theorem rdResidual_all {A : Arith} {o : MFOwner ℝ} {k : List ℝ × List ℝ} {cvgs : List ℝ} {r : ℝ} (h : rdResidual A o k cvgs = .ok r) :
    ∃ gs, rdSteady A o k cvgs = .ok gs ∧ ∀ g ∈ gs, |g| ≤ r := by
  unfold rdResidual at h
  rw [bind_ok] at h
  obtain ⟨gs, hg, h⟩ := h
  refine ⟨gs, hg, ?_⟩
  rcases gs with _ | ⟨d, ds⟩
  · cases h
  · simp only [List.map_cons, pyMax] at h
    have h := Except.ok.inj h
    obtain ⟨m1, m2, -⟩ := foldl_max (ds.map fun d => |d|) |d|
    rw [h] at m1 m2
    intro x hx
    rcases List.mem_cons.mp hx with e | e
    · subst e; exact m1
    · exact m2 _ (List.mem_map_of_mem (f := fun d => |d|) e)

/-- **C130** Coverages returned by the search, whatever the iterator, the hybrid method and the rest, with rate constants close
to exact ones: they satisfy the exact equations up to the tolerance and rounding errors, in a model whose totals differ by
rounding errors. -/
theorem C130_returned (A : Arith) (u : ℝ) (h : A.Rounds u) (o : MFOwner ℝ) (total P C : Str → ℝ) (hr : Ready o total P C)
    (hnd : o.rxns.Nodup) (hclean : ∀ states ∈ o.net.rxns, RateClean states) (c : ℝ) (hc : 1 ≤ c) (k k' : List ℝ × List ℝ)
    (h1 : List.Forall₂ (Within c) k'.1 k.1) (h2 : List.Forall₂ (Within c) k'.2 k.2)
    (hlen : k.1.length = o.rxns.length ∧ k.2.length = o.rxns.length)
    (L : Nat) (hL : ∀ states ∈ o.net.rxns, ∀ fs ∈ states, fs.length ≤ L)
    (goodError : List ℝ → Py ℝ) (newton : List ℝ → List (List ℝ × ℝ) × IterEnd) (tol : ℝ) (maxIter : Int)
    (hybrid : Option (Option (List ℝ) → Nat → Py (List ℝ))) (plugins : List SolvePlugin) (singlePt : Bool)
    (constrain : List ℝ → Py (List ℝ)) (rounds : Nat) (c0 : Option (List ℝ)) (st st' : SolveState ℝ) (v : Str → ℝ)
    (hsearch : getSteady (rdSolveEnv A o k' goodError newton tol maxIter hybrid plugins singlePt) constrain rounds c0 st =
      some (st', .returned (o.net.ads.map v))) :
    ∃ o' total' rf rr, SameButTotals o o' ∧ Ready o' total' P C ∧
      (∀ s, |total' s - total s| ≤ ((1 + u) ^ ((o.net.ads.filter (fun a => OnSite a s)).length + 1) - 1)
        * (|total s| + ((o.net.ads.filter (fun a => OnSite a s)).map fun a => |v a|).sum)) ∧
      getRates o' k (o.net.ads.map v) = .ok (rf, rr) ∧
      ∃ F : Str → ℝ, steadyStateFunction o' k (o.net.ads.map v) = .ok (o.net.ads.map F) ∧
        ∀ a ∈ o.net.ads, |F a| ≤ tol + (c * (1 + u) ^ (2 * L + 2 * o.rxns.length) - 1) * turnoverOf a o.rxns rf rr := by
  obtain ⟨⟨r, hres, hle⟩, -⟩ := C31_residual _ constrain rounds c0 st st' _ hsearch
  have hres : rdResidual A o k' (o.net.ads.map v) = .ok r := hres
  have hle : r ≤ tol := hle
  obtain ⟨gs, hg, hgs⟩ := rdResidual_all hres
  obtain ⟨o', total', hs, hr', hd, hb⟩ := C130_sites A u h o total P C hr v
  have hrates : ∃ rr, getRates o' k (o.net.ads.map v) = .ok rr := by
    have := (C25_defined_iff o' total' P C hr' v k.1 k.2 (by rw [hs.rxns]; exact hnd) (by rw [hs.rxns]; exact hlen.1)
      (by rw [hs.rxns]; exact hlen.2)).1.mpr (by rw [hs.net]; exact hclean)
    rwa [hs.net] at this
  obtain ⟨⟨rf, rr⟩, hrr⟩ := hrates
  obtain ⟨F, e1, e2⟩ := C130_residual A u h o o' hr.parse hs _ hd c hc k k' h1 h2 L hL rf rr hrr gs tol hg (fun g hg => (hgs g hg).trans hle)
  exact ⟨o', total', rf, rr, hs, hr', hb, hrr, F, e1, e2⟩

theorem rateConstants_len {ro : RateOwner} {rel : RelDict ℝ} {k : List ℝ × List ℝ} (hk : rateConstants ro .TST rel = .ok k) :
    k.1.length = ro.rxns.length ∧ k.2.length = ro.rxns.length := by
  unfold rateConstants at hk
  split at hk
  · cases hk
  · rw [bind_ok] at hk
    obtain ⟨l, hl, hk⟩ := hk
    rw [pure_ok] at hk
    have : l.length = ro.rxns.length := (mapM_ok_inv hl).1
    subst hk
    exact ⟨by simpa using this, by simpa using this⟩

/-- **C130** The same for given energies: the coverages returned satisfy the exact equations for these energies
up to the tolerance and rounding errors, in a model whose totals differ by rounding errors. -/
theorem C130_search (A : Arith) (u : ℝ) (h : A.Rounds u) (hu : u < 1) (o : MFOwner ℝ) (total P C : Str → ℝ) (hr : Ready o total P C)
    (hnd : o.rxns.Nodup) (hclean : ∀ states ∈ o.net.rxns, RateClean states)
    (ro : RateOwner) (hro : ro.rxns = o.rxns) (rel : RelDict ℝ) (X : ℝ) (hX0 : 0 ≤ X)
    (hX : ∀ rxn v, relOf ro.rxns rel rxn = .ok v → |v.gaf / (kBeV * ro.T)| ≤ X ∧ |v.gar / (kBeV * ro.T)| ≤ X)
    (L : Nat) (hL : ∀ states ∈ o.net.rxns, ∀ fs ∈ states, fs.length ≤ L) (k' : List ℝ × List ℝ) (hk' : rdConstants A ro rel = .ok k')
    (goodError : List ℝ → Py ℝ) (newton : List ℝ → List (List ℝ × ℝ) × IterEnd) (tol : ℝ) (maxIter : Int)
    (hybrid : Option (Option (List ℝ) → Nat → Py (List ℝ))) (plugins : List SolvePlugin) (singlePt : Bool)
    (constrain : List ℝ → Py (List ℝ)) (rounds : Nat) (c0 : Option (List ℝ)) (st st' : SolveState ℝ) (v : Str → ℝ)
    (hsearch : getSteady (rdSolveEnv A o k' goodError newton tol maxIter hybrid plugins singlePt) constrain rounds c0 st =
      some (st', .returned (o.net.ads.map v))) :
    ∃ o' total' k rf rr, SameButTotals o o' ∧ Ready o' total' P C ∧ rateConstants ro .TST rel = .ok k ∧
      (∀ s, |total' s - total s| ≤ ((1 + u) ^ ((o.net.ads.filter (fun a => OnSite a s)).length + 1) - 1)
        * (|total s| + ((o.net.ads.filter (fun a => OnSite a s)).map fun a => |v a|).sum)) ∧
      getRates o' k (o.net.ads.map v) = .ok (rf, rr) ∧
      ∃ F : Str → ℝ, steadyStateFunction o' k (o.net.ads.map v) = .ok (o.net.ads.map F) ∧
        ∀ a ∈ o.net.ads, |F a| ≤ tol +
          ((1 + u) ^ (2 * L + 2 * o.rxns.length + 4) * Real.exp (2 * u / (1 - u) * X) - 1) * turnoverOf a o.rxns rf rr := by
  have h0 := h.nonneg
  have hrel := C130_constants A u h hu ro rel X hX
  rw [hk'] at hrel
  obtain ⟨k, hk, h1, h2⟩ := relPy_ok_left hrel
  have hc : 1 ≤ (1 + u) ^ 4 * Real.exp (2 * u / (1 - u) * X) :=
    one_le_mul_of_one_le_of_one_le (h.one_le 4) (Real.one_le_exp (mul_nonneg (div_nonneg (by linarith) (by linarith)) hX0))
  obtain ⟨o', total', rf, rr, hs, hr', hb, hrr, F, e1, e2⟩ := C130_returned A u h o total P C hr hnd hclean _ hc k k' h1 h2
    (by rw [← hro]; exact rateConstants_len hk) L hL goodError newton tol maxIter hybrid plugins singlePt constrain rounds c0 st st' v hsearch
  refine ⟨o', total', k, rf, rr, hs, hr', hk, hb, hrr, F, e1, fun a ha => ?_⟩
  have := e2 a ha
  rwa [show (1 + u) ^ 4 * Real.exp (2 * u / (1 - u) * X) * (1 + u) ^ (2 * L + 2 * o.rxns.length) =
      (1 + u) ^ (2 * L + 2 * o.rxns.length + 4) * Real.exp (2 * u / (1 - u) * X) by rw [pow_add _ _ 4]; ring] at this

/-- The hypotheses hold in double precision: with the tolerance its residual, the guess `1/2` is returned for one reaction
with the barriers 0.5 and 1 at 500 K. -/
example : ∃ (k' : List ℝ × List ℝ) (tol : ℝ) (st st' : SolveState ℝ), rdConstants (Arith.digits 53) oneStepRates oneStepEnergies = .ok k' ∧
    getSteady (rdSolveEnv (Arith.digits 53) (oneStepModel 2) k' (fun _ => .ok 0) (fun _ => ([], .stopped)) tol 10 none [] false) .ok 1
      (some ((oneStepModel 2).net.ads.map fun _ => 1 / 2)) st = some (st', .returned ((oneStepModel 2).net.ads.map fun _ => 1 / 2)) ∧
    (oneStepModel 2).rxns.Nodup ∧ (∀ states ∈ (oneStepModel 2).net.rxns, RateClean states) ∧ oneStepRates.rxns = (oneStepModel 2).rxns := by
  obtain ⟨k', hk'⟩ := oneStep_constants (Arith.digits 53) _ (digits_rounds 53) (by norm_num)
  have hclean : ∀ states ∈ (oneStepModel 2).net.rxns, RateClean states := by
    have : ∀ states ∈ (netOf oneStep).rxns, RateClean states :=
      fun st hst => rateClean_of ((by decide : ∀ st ∈ (netOf oneStep).rxns, rateCleanB st = true) st hst)
    exact this
  have hnd : (oneStepModel 2).rxns.Nodup := by
    have : oneStep.Nodup := by decide
    exact this
  have hres : ∃ r, rdResidual (Arith.digits 53) (oneStepModel 2) k' ((oneStepModel 2).net.ads.map fun _ => 1 / 2) = .ok r := by
    have hrel := C130_constants (Arith.digits 53) _ (digits_rounds 53) (by norm_num) oneStepRates oneStepEnergies 24 oneStep_barriers
    rw [hk'] at hrel
    obtain ⟨k, hk, h1, h2⟩ := relPy_ok_left hrel
    obtain ⟨o', total', hs, hr', hd, -⟩ := C130_sites (Arith.digits 53) _ (digits_rounds 53) (oneStepModel 2) _ _ _ (oneStep_ready 2) (fun _ => 1 / 2)
    have hlen : k.1.length = 1 ∧ k.2.length = 1 := rateConstants_len hk
    have hone : (oneStepModel 2).rxns.length = 1 := rfl
    obtain ⟨⟨rf, rr⟩, hrr⟩ := (C25_defined_iff o' total' _ _ hr' (fun _ => 1 / 2) k.1 k.2 (by rw [hs.rxns]; exact hnd)
      (by rw [hs.rxns, hone]; exact hlen.1) (by rw [hs.rxns, hone]; exact hlen.2)).1.mpr (by rw [hs.net]; exact hclean)
    rw [hs.net] at hrr
    obtain ⟨F, hf, -⟩ := C130_equations (Arith.digits 53) _ (digits_rounds 53) (oneStepModel 2) o' oneStep_parse hs _ hd _
      (one_le_mul_of_one_le_of_one_le ((digits_rounds 53).one_le 4) (Real.one_le_exp (by norm_num))) k k' h1 h2 2 (oneStep_len 2) rf rr hrr
    unfold rdResidual
    rw [hf, show (oneStepModel 2).net.ads = _ from oneStep_ads]
    exact ⟨_, rfl⟩
  obtain ⟨r, hres⟩ := hres
  refine ⟨k', r, ⟨none, none, false, [], []⟩, ?_⟩
  refine ⟨⟨some ((oneStepModel 2).net.ads.map fun _ => 1 / 2), some 0, true, [],
    [.coverages ((oneStepModel 2).net.ads.map fun _ => 1 / 2), .error 0, .guess ((oneStepModel 2).net.ads.map fun _ => 1 / 2)]⟩, hk', ?_, hnd, hclean, rfl⟩
  generalize ((oneStepModel 2).net.ads.map fun _ => (1 / 2 : ℝ)) = x at hres ⊢
  simp [getSteady, outerLoop, outerBody, rdSolveEnv, hres, finalizeAll, finish, allCalls, bind, Except.bind, pure, Except.pure]

end Verif
