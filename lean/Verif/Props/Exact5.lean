import Verif.Props.Symbolic
import Verif.Props.Exact

namespace Verif
open Dict

variable {K : Type} [Field K]

/-- What the symbolic equation drops for a reaction: nothing if no formula names the adsorbate, else the coefficient of the first
formula that does beyond one, taken away if it stands in the first state and added if it stands in a later one. -/
inductive DropsAs (a : Str) : List (List Formula) → Int → Prop
  | absent (states : List (List Formula)) (h : ∀ fs ∈ states, ∀ f ∈ fs, f.speciesSite ≠ a) : DropsAs a states 0
  | first (p q : List Formula) (f : Formula) (rest : List (List Formula)) (hp : ∀ g ∈ p, g.speciesSite ≠ a) (hf : f.speciesSite = a) :
      DropsAs a ((p ++ f :: q) :: rest) (-((f.stoich : Int) - 1))
  | later (fs : List Formula) (mid : List (List Formula)) (p q : List Formula) (f : Formula) (rest : List (List Formula))
      (hm : ∀ gs ∈ fs :: mid, ∀ g ∈ gs, g.speciesSite ≠ a) (hp : ∀ g ∈ p, g.speciesSite ≠ a) (hf : f.speciesSite = a) :
      DropsAs a (fs :: mid ++ (p ++ f :: q) :: rest) ((f.stoich : Int) - 1)

theorem zipWith_minus (f g : List (List Formula) → Int) (rs : List (List (List Formula))) (net : List K) :
    (List.zipWith (fun s r => (f s : K) * r) rs net).sum =
    (List.zipWith (fun s r => (g s : K) * r) rs net).sum - (List.zipWith (fun s r => ((g s - f s : Int) : K) * r) rs net).sum := by
  induction rs generalizing net with
  | nil => simp
  | cons s rs ih =>
    cases net with
    | nil => simp
    | cons r net =>
      simp only [List.zipWith_cons_cons, List.sum_cons, ih net]
      push_cast
      ring

theorem drops_side (a : Str) (states : List (List Formula)) : DropsAs a states (codeCoef a states - sideOf a states) := by
  unfold codeCoef sideOf
  rcases findAds_spec a states with ⟨h1, h2⟩ | ⟨pre, p, f, q, rest, rfl, h2, h3, h4, h5⟩
  · rw [h1]; exact .absent states h2
  · rw [h5]
    cases pre with
    | nil =>
      have := DropsAs.first p q f rest h3 h4
      have e : -(f.stoich : Int) - -1 = -((f.stoich : Int) - 1) := by ring
      show DropsAs a _ (-(f.stoich : Int) - -1)
      rw [e]
      exact this
    | cons fs mid => exact .later fs mid p q f rest h2 h3 h4

/-- **C29** For all networks: the symbolic coverage equation of an adsorbate is the numerical one less the net rates times the
numbers it drops, which are one less than the numbers written at the mention that counts. -/
theorem C29_difference [DecidableEq K] (ex : K → K) (s0 : SymSolver K) (total P C : Str → K) (gaf dg kf kr : List K)
    (h : SymGiven s0 total P C gaf dg) (hk : KGiven ex s0 gaf dg kf kr) :
    ∃ s, prepare s0 = .ok s ∧ ∃ c : Str → List (List Formula) → Int, (∀ a states, DropsAs a states (c a states)) ∧
      ∀ cvgs : List K, cvgs.length = s0.o.net.ads.length →
      ∃ net : List K, ∃ D : Str → K, getNetRates s0.o (kf, kr) cvgs = .ok net ∧
        steadyStateFunction s0.o (kf, kr) cvgs = .ok (s0.o.net.ads.map D) ∧
        steadyBySym ex s cvgs = .ok (s0.o.net.ads.map fun a => D a - (List.zipWith (fun states r => (c a states : K) * r) s0.o.net.rxns net).sum) := by
  obtain ⟨s, hp, hv⟩ := C29_values_partial ex s0 total P C gaf dg kf kr h hk
  refine ⟨s, hp, fun a states => codeCoef a states - sideOf a states, drops_side, fun cvgs hlen => ?_⟩
  obtain ⟨net, h1, h2⟩ := hv cvgs hlen
  obtain ⟨v, rfl⟩ := tuple_as_function (ads_nodup h.ready.parse) hlen
  obtain ⟨k1, k2⟩ := kGiven_ok hk
  obtain ⟨net', g1, g2, g3⟩ := steady_ok s0.o total P C h.ready h.clean v kf kr _ _ k1 k2
  rw [h1] at g1
  cases g1
  refine ⟨net, _, h1, g3, ?_⟩
  rw [h2]
  congr 1
  apply List.map_congr_left
  intro a _
  exact zipWith_minus _ _ _ _

/-- For the dissociative adsorption of C29_dissociation_refuted (two atoms per event) one atom is dropped. -/
example : ∃ states ∈ exDissMF.net.rxns, ∃ a ∈ exDissMF.net.ads, codeCoef a states = 2 ∧ DropsAs a states 1 := by
  refine ⟨_, List.mem_of_getElem? (i := 0) rfl, _, List.mem_of_getElem? (i := 0) rfl, by decide, ?_⟩
  exact DropsAs.later _ [] [] [] _ [] (by decide) (by decide) (by decide)

end Verif
