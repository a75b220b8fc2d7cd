import Verif.Py.Basic
/-
The two root finding iterators, `scaks/solvers/rootfinding_iterators.py`. Vectors, values, matrices
and numbers are arbitrary types; the arithmetic on them (which rounds in the code) is given by
arbitrary functions. Loops that need not end are run for a given number of rounds.
-/
namespace Verif

/-- A triple given by an iterator.
Models: `scaks/solvers/rootfinding_iterators.py` 147, 262. -/
structure Yielded (X K F : Type) where
  x : X
  norm : K
  fx : F
  deriving DecidableEq

/-- How an iterator ended: after a stationary point, with an error, or not within the rounds given.
Models: `scaks/solvers/rootfinding_iterators.py` 112, 141-143, 236, 247-251. -/
inductive IterEnd
  | stopped
  | raised (e : PyErr)
  | running
  deriving DecidableEq

/-- What the iterators are given: the function, its derivative, the solution of `J s = -fx`, the
norm, and `x + l * s`.
Models: `scaks/solvers/rootfinding_iterators.py` 71-87, 200-213. -/
structure NewtonProblem (X K F M : Type) where
  f : X → Py F
  J : X → Py M
  solve : M → F → Py X
  norm : F → K
  move : X → K → X → X

/-- An error of the linear solver as `ConstrainedNewton` reports it.
Models: `scaks/solvers/rootfinding_iterators.py` 122-129. -/
def renameZeroDivision {A : Type} : Py A → Py A
  | .error .ZeroDivisionError => .error .ValueError
  | r => r

/-- One round of `ConstrainedNewton`; `c` rounds have been done. The step sizes found by the golden
section search are arbitrary, and the search may raise.
Models: `scaks/solvers/rootfinding_iterators.py` 112-147. -/
def conStep {X K F M : Type} [DecidableEq X] (p : NewtonProblem X K F M) (constraint : X → Py X) (size : Nat → Py K) (c : Nat) (x0 : X) :
    Py (Yielded X K F × Bool) := do
  let fx ← p.f x0
  let Jx ← p.J x0
  let s ← renameZeroDivision (p.solve Jx fx)
  let l ← size (c + 1)
  let x1 ← if c + 1 ≤ 5 then pure (p.move x0 l s) else constraint (p.move x0 l s)
  let fx1 ← p.f x1
  pure (⟨x1, p.norm fx1, fx1⟩, decide (x1 = x0))

/-- The loop of `ConstrainedNewton`, at most `n` rounds.
Models: `scaks/solvers/rootfinding_iterators.py` 112-147. -/
def conLoop {X K F M : Type} [DecidableEq X] (p : NewtonProblem X K F M) (constraint : X → Py X) (size : Nat → Py K) :
    Nat → Nat → X → List (Yielded X K F) × IterEnd
  | 0, _, _ => ([], .running)
  | n + 1, c, x0 =>
    match conStep p constraint size c x0 with
    | .error e => ([], .raised e)
    | .ok (y, true) => ([y], .stopped)
    | .ok (y, false) =>
      let r := conLoop p constraint size n (c + 1) y.x
      (y :: r.1, r.2)

/-- `ConstrainedNewton.__iter__`: the function is called once before the loop.
Models: `scaks/solvers/rootfinding_iterators.py` 98-147. -/
def conNewton {X K F M : Type} [DecidableEq X] (p : NewtonProblem X K F M) (constraint : X → Py X) (size : Nat → Py K) (n : Nat) (x0 : X) :
    List (Yielded X K F) × IterEnd :=
  match p.f x0 with
  | .error e => ([], .raised e)
  | .ok _ => conLoop p constraint size n 0 x0

/-- The end of a line search: a better point, or a point that cannot be told from the old one; then
the value kept is that of the last point tried.
Models: `scaks/solvers/rootfinding_iterators.py` 245-260. -/
inductive LineEnd (X K F : Type)
  | accepted (x : X) (norm : K) (fx : F)
  | stationary (fx : F)

/-- The halving of steps, at most `n` times; `none` if it has not ended.
Models: `scaks/solvers/rootfinding_iterators.py` 243-260. -/
def lineSearch {X K F M : Type} [DecidableEq X] [LT K] [DecidableRel (α := K) (· < ·)] (p : NewtonProblem X K F M) (half : K → K) (x0 s : X)
    (fxnorm : K) : Nat → K → F → Option (Py (LineEnd X K F))
  | 0, _, _ => none
  | n + 1, l, fx =>
    if p.move x0 l s = x0 then some (.ok (.stationary fx))
    else match p.f (p.move x0 l s) with
      | .error e => some (.error e)
      | .ok fx1 =>
        if p.norm fx1 < fxnorm then some (.ok (.accepted (p.move x0 l s) (p.norm fx1) fx1))
        else lineSearch p half x0 s fxnorm n (half l) fx1

/-- The loop of `MDNewton`, at most `n` rounds with at most `m` halvings each. Errors of the linear
solver are not caught.
Models: `scaks/solvers/rootfinding_iterators.py` 235-262. -/
def mdLoop {X K F M : Type} [DecidableEq X] [LT K] [DecidableRel (α := K) (· < ·)] (p : NewtonProblem X K F M) (one : K) (half : K → K) (m : Nat) :
    Nat → X → K → F → List (Yielded X K F) × IterEnd
  | 0, _, _, _ => ([], .running)
  | n + 1, x0, fxnorm, fx =>
    match p.J x0 with
    | .error e => ([], .raised e)
    | .ok Jx =>
      match p.solve Jx fx with
      | .error e => ([], .raised e)
      | .ok s =>
        match lineSearch p half x0 s fxnorm m one fx with
        | none => ([], .running)
        | some (.error e) => ([], .raised e)
        | some (.ok (.stationary fx')) => ([⟨x0, fxnorm, fx'⟩], .stopped)
        | some (.ok (.accepted x1 norm1 fx1)) =>
          let r := mdLoop p one half m n x1 norm1 fx1
          (⟨x1, norm1, fx1⟩ :: r.1, r.2)

/-- `MDNewton.__iter__`.
Models: `scaks/solvers/rootfinding_iterators.py` 226-262. -/
def mdNewton {X K F M : Type} [DecidableEq X] [LT K] [DecidableRel (α := K) (· < ·)] (p : NewtonProblem X K F M) (one : K) (half : K → K) (m n : Nat)
    (x0 : X) : List (Yielded X K F) × IterEnd :=
  match p.f x0 with
  | .error e => ([], .raised e)
  | .ok fx => mdLoop p one half m n x0 (p.norm fx) fx

end Verif
