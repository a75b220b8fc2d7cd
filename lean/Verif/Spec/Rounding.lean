import Verif.Model.Rounding
import Verif.Lemmas.Balance
/-
What is asked of the arithmetic, and how far results may be from the exact ones.
-/
namespace Verif

/-- The number `x` differs from `y` by at most the part `c - 1` of the size of `y`. -/
def Within (c x y : ℝ) : Prop := |x - y| ≤ (c - 1) * |y|

/-- Every operation gives the exact result up to the part `u` of its size. -/
structure Arith.Rounds (A : Arith) (u : ℝ) : Prop where
  nonneg : 0 ≤ u
  add : ∀ x y, Within (1 + u) (A.add x y) (x + y)
  sub : ∀ x y, Within (1 + u) (A.sub x y) (x - y)
  mul : ∀ x y, Within (1 + u) (A.mul x y) (x * y)
  div : ∀ x y, Within (1 + u) (A.div x y) (x / y)
  pow : ∀ x n, Within (1 + u) (A.pow x n) (x ^ n)
  exp : ∀ x, Within (1 + u) (A.exp x) (Real.exp x)

/-- Arithmetic without rounding. -/
noncomputable def Arith.exact : Arith :=
  ⟨(· + ·), (· - ·), (· * ·), (· / ·), (· ^ ·), Real.exp⟩

/-- Both calls fail with the same error, or both succeed with related results. -/
def RelPy {α β : Type} (R : α → β → Prop) : Py α → Py β → Prop
  | .ok a, .ok b => R a b
  | .error e, .error f => e = f
  | _, _ => False

/-- The coefficient of an adsorbate in a reaction: the one of the first formula naming it. -/
def firstCoef (a rxn : Str) : Nat :=
  match eqnFormulas rxn with
  | .ok states => ((states.flatten.find? (·.speciesSite = a)).map (·.stoich)).getD 0
  | .error _ => 0

/-- The sizes of all gains and losses of an adsorbate, added up. -/
noncomputable def turnoverOf (a : Str) (rxns : List Str) (rf rr : List ℝ) : ℝ :=
  (List.zipWith3 (fun rxn f r => (firstCoef a rxn : ℝ) * (|f| + |r|)) rxns rf rr).sum

/-- The sizes of all production and consumption of a gas or liquid, added up. -/
noncomputable def gasTurnover (x : Str) (rs : List (List (List Formula))) (rf rr : List ℝ) : ℝ :=
  (List.zipWith3 (fun states f r => |(produced x states : ℝ)| * (|f| + |r|)) rs rf rr).sum

end Verif
