import Verif.Props.Thermo
/-
C67: the gases whose entropy is known.
-/
namespace Verif
open Dict

/-- The gases for which both tables have an entry. -/
def entropyGases : List Str := [str! "H2_g", str! "N2_g", str! "O2_g", str! "I2_g", str! "CO_g", str! "NO_g", str! "HCl_g", str! "CO2_g",
  str! "N2O_g", str! "H2O_g", str! "NH3_g", str! "CH4_g"]

/-- C67: the entropy of exactly twelve gases is known; every other species has the correction zero. -/
theorem C67_gases (s : Str) : (∃ x y, get? rotationTable s = some x ∧ get? vibrationTable s = some y) ↔ s ∈ entropyGases := by
  constructor
  · rintro ⟨x, y, hx, hy⟩
    have h : ∀ e ∈ rotationTable, (get? vibrationTable e.1).isSome = true → e.1 ∈ entropyGases := by decide +kernel
    exact h _ (mem_of_get? hx) (by rw [hy]; rfl)
  · intro hs
    have h : ∀ s ∈ entropyGases, (get? rotationTable s).isSome = true ∧ (get? vibrationTable s).isSome = true := by decide +kernel
    obtain ⟨h1, h2⟩ := h s hs
    obtain ⟨x, hx⟩ := Option.isSome_iff_exists.mp h1
    obtain ⟨y, hy⟩ := Option.isSome_iff_exists.mp h2
    exact ⟨x, y, hx, hy⟩

/-- C67: a gas outside the list is not corrected, whatever the temperature and the pressure. -/
theorem C67_others (P : Dict Str ℝ) (T : ℝ) (p? : Option ℝ) (name : Str) (f : Formula) (h : chemFormula name = .ok f)
    (hn : f.speciesSite ∉ entropyGases) : entropyCorrection P T p? name = .ok 0 := by
  refine C67_not_corrected P T p? name f h (Or.inr ?_)
  by_contra hc
  push Not at hc
  obtain ⟨x, hx⟩ := Option.ne_none_iff_exists'.mp hc.1
  obtain ⟨y, hy⟩ := Option.ne_none_iff_exists'.mp hc.2
  exact hn ((C67_gases _).mp ⟨x, y, hx, hy⟩)

/-- Deuterium has an entry for its rotation only. -/
example : entropyCorrection [] 450 none (str! "D2_g") = .ok 0 :=
  C67_others [] 450 none _ ⟨str! "D2_g", 1, str! "D2", 1, str! "g", str! "D2_g"⟩ (by decide) (by decide)

end Verif
