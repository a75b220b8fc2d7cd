import Verif.Props.PlotTof
import Mathlib.Algebra.CharZero.Defs
import Mathlib.Data.Int.Cast.Lemmas
/- C100: for which products the plotted turnover is the true one. -/
namespace Verif
open Dict

variable {K : Type} [Field K]

/-- C100: the script shows the turnover frequency whatever the rates are exactly when every reaction with the text of the
product in its last state makes one molecule of it and every other reaction makes none. -/
theorem C100_exact_iff [CharZero K] (p : Str) (ps : List ShownProcess) (h : ∀ q ∈ ps, q.rxn.ok = true) (bufferSize : Nat) :
    (∀ records : List (K × List K), (∀ x ∈ records, x.2.length = ps.length) →
      plotTof p (tofFile (ps.map ShownProcess.label) bufferSize records) =
        .ok (records.map fun x => .num x.1, records.map fun x => shownTurnover p ps x.2)) ↔
    ∀ q ∈ ps, netMade p q.rxn = if p <:+: q.rxn.lastState.text then 1 else 0 := by
  constructor
  · intro hall
    have rows : ∀ row : List K, row.length = ps.length → textTurnover p ps row = shownTurnover p ps row := by
      intro row hrow
      have h1 := hall [(0, row)] (by simpa using hrow)
      rw [C100_shown p ps h bufferSize [(0, row)] (by simpa using hrow)] at h1
      have h2 := (Prod.mk.inj (Except.ok.inj h1)).2
      simpa using h2
    clear hall h
    induction ps with
    | nil => intro q hq; exact absurd hq (by simp)
    | cons q ps ih =>
      have zeroT : ∀ l : List ShownProcess, textTurnover p l (List.replicate l.length (0 : K)) = 0 := by
        intro l
        induction l with
        | nil => simp [textTurnover]
        | cons a l ihl =>
          simp only [textTurnover, List.length_cons, List.replicate_succ, List.zip_cons_cons, List.map_cons, List.sum_cons] at ihl ⊢
          rw [ihl]; simp
      have zeroS : ∀ l : List ShownProcess, shownTurnover p l (List.replicate l.length (0 : K)) = 0 := by
        intro l
        induction l with
        | nil => simp [shownTurnover]
        | cons a l ihl =>
          simp only [shownTurnover, List.length_cons, List.replicate_succ, List.zip_cons_cons, List.map_cons, List.sum_cons] at ihl ⊢
          rw [ihl]; simp
      have hq : netMade p q.rxn = if p <:+: q.rxn.lastState.text then 1 else 0 := by
        have e := rows (1 :: List.replicate ps.length 0) (by simp)
        have eT := zeroT ps
        have eS := zeroS ps
        simp only [textTurnover, shownTurnover, List.zip_cons_cons, List.map_cons, List.sum_cons, mul_one] at e eT eS
        rw [eT, eS, add_zero, add_zero] at e
        have hs : (if q.forward then (1 : K) else -1) ≠ 0 := by split <;> simp
        have e := mul_left_cancel₀ hs e
        have e : (((if p <:+: q.rxn.lastState.text then 1 else 0 : Int)) : K) = (netMade p q.rxn : K) := by
          rw [← e]; split <;> simp
        exact (Int.cast_injective e).symm
      intro x hx
      rcases List.mem_cons.mp hx with rfl | hx
      · exact hq
      · refine ih (fun row hrow => ?_) x hx
        have e := rows (0 :: row) (by simpa using hrow)
        simpa [textTurnover, shownTurnover] using e
  · intro hall records hr
    rw [C100_shown p ps h bufferSize records hr]
    congr 2
    refine List.map_congr_left fun x _ => ?_
    unfold textTurnover shownTurnover
    congr 1
    refine List.map_congr_left fun y hy => ?_
    rw [hall y.1 (List.of_mem_zip hy).1]
    split <;> simp

-- Of the three processes of `exShown`, carbon dioxide is shown truly and oxygen is not.
example := C100_exact_iff (K := ℚ) exCO2.speciesSite exShown exShown_countable.1 1
example : (∀ q ∈ exShown, netMade exCO2.speciesSite q.rxn = if exCO2.speciesSite <:+: q.rxn.lastState.text then 1 else 0) ∧
    ¬ ∀ q ∈ exShown, netMade exO2.speciesSite q.rxn = if exO2.speciesSite <:+: q.rxn.lastState.text then 1 else 0 := by
  decide +kernel

end Verif
