import Verif.Props.Exact

namespace Verif
open Dict

/-- **C07** The list of the species of a state names, in the order they are written and as often as they are written,
the species with their sites and without their coefficients. -/
theorem C07_species_list (s : Spec.State) (h : s.ok = true) :
    ∃ fs, stateFormulas s.text = .ok fs ∧ speciesSiteList fs = s.map Spec.Formula.speciesSite ∧
      ∀ x, x ∈ speciesSiteList fs ↔ (get? (speciesSiteDict fs) x).isSome := by
  obtain ⟨fs, h1, h2, h3⟩ := C07_last s h
  have e : fs = s.map ofSpec := Except.ok.inj (h1.symm.trans (stateFormulas_ofSpec h))
  have hl : speciesSiteList fs = s.map Spec.Formula.speciesSite := by
    rw [e, speciesSiteList, List.map_map]
    rfl
  refine ⟨fs, h1, hl, fun x => ?_⟩
  rw [hl]
  constructor
  · intro hx
    obtain ⟨pre, f, post, e, hf, hp⟩ : ∃ pre f post, s = pre ++ f :: post ∧ f.speciesSite = x ∧
        ∀ g ∈ post, g.speciesSite ≠ x := by
      clear h1 h2 h3 e hl h
      induction s with
      | nil => simp at hx
      | cons a s ih =>
        by_cases hs : x ∈ s.map Spec.Formula.speciesSite
        · obtain ⟨pre, f, post, e, hf, hp⟩ := ih hs
          exact ⟨a :: pre, f, post, by rw [e]; rfl, hf, hp⟩
        · refine ⟨[], a, s, rfl, ?_, fun g hg e => hs (List.mem_map.mpr ⟨g, hg, e⟩)⟩
          rcases List.mem_cons.mp hx with h | h
          · exact h.symm
          · exact absurd h hs
    rw [h2 x pre f post e hf hp]
    rfl
  · intro hx
    by_contra hn
    rw [h3 x fun f hf e => hn (List.mem_map.mpr ⟨f, hf, e⟩)] at hx
    exact absurd hx (by simp)

/-- `2CO_s + *_t`: a state of two species. -/
example : ∃ fs, stateFormulas (str! "2CO_s + *_t") = .ok fs ∧ speciesSiteList fs = [str! "CO_s", str! "*_t"] :=
  ⟨_, rfl, by decide +kernel⟩

end Verif
