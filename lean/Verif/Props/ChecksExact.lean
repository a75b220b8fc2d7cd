import Verif.Props.Checks
/- C49: which accepted gases have a pressure that can be read. -/
namespace Verif
open Dict

/-- **C49** Of an accepted definition, the pressure of a declared gas ending in `_g` can be read exactly if it is declared by
a dictionary; of another gas exactly if that dictionary has a pressure. -/
theorem C49_readable_iff (d d' : Dict Str PyVal) (gas : Str) (v : PyVal) (h : checkSpeciesDefinitions d = .ok d')
    (hd : get? d gas = some v) :
    (str! "_g" <:+ gas → ((∃ p, readPressure d gas = .ok p) ↔ ∃ defs, v = .dict defs)) ∧
    ((∃ p, readPressure d gas = .ok p) ↔ ∃ defs p, v = .dict defs ∧ (PyVal.str (str! "pressure"), p) ∈ defs) := by
  have hall : (∃ p, readPressure d gas = .ok p) ↔ ∃ defs p, v = .dict defs ∧ (PyVal.str (str! "pressure"), p) ∈ defs := by
    constructor
    · rintro ⟨p, hp⟩
      obtain ⟨defs, h1, a, b, e, -⟩ := ((C49_reading d gas).1 p).mp hp
      rw [hd] at h1
      exact ⟨defs, p, Option.some.inj h1, by rw [e]; simp⟩
    · rintro ⟨defs, p, rfl, hp⟩
      cases hr : readPressure d gas with
      | ok q => exact ⟨q, rfl⟩
      | error e =>
        exfalso
        unfold readPressure at hr
        rw [hd] at hr
        unfold pressureOf at hr
        dsimp only at hr
        split at hr
        · exact nomatch hr
        · rename_i hn
          have := List.find?_eq_none.mp hn _ hp
          simp at this
  refine ⟨fun hg => ⟨?_, ?_⟩, hall⟩
  · intro hp
    obtain ⟨defs, -, e, -⟩ := hall.mp hp
    exact ⟨defs, e⟩
  · rintro ⟨defs, rfl⟩
    exact ((C49_pressure_partial d gas defs hg hd).1 d' h).2

example := C49_readable_iff (exDefs (.str (str! "low pressure"))) _ (str! "CO_g") _ rfl rfl
example := C49_readable_iff (exDefs (.dict [(.str (str! "pressure"), .float (1 / 10))])) _ (str! "CO_g") _ rfl rfl

end Verif
