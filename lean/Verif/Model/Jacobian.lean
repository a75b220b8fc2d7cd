import Verif.Model.MeanField
/-
The analytical Jacobian, `scaks/solvers/steady_state_solver.py` 256-495. The code differentiates
the text of the coverage equations with regular expressions; the model does the same with the
list of the factors of each product.
-/
namespace Verif
open Dict

/-- A factor of a product text: a number, `kf[i]` or `kr[i]`, a factor of a rate expression,
`theta[name]**pow` written by the derivation, or the substituted `(total - theta[a] - ...)**pow`.
Models: `scaks/solvers/steady_state_solver.py` 268-300, 340-350. -/
inductive Piece (K : Type)
  | num (n : Nat)
  | k (fwd : Bool) (idx : Nat)
  | fac (f : Factor)
  | der (name : Str) (pow : Int)
  | free (total : K) (ads : List Str) (pow : Int)

/-- The factors of the text of a term, in order; a coefficient 1 is not written.
Models: `scaks/solvers/steady_state_solver.py` 153-169. -/
def termPieces {K : Type} (t : Term) : List (Piece K) :=
  (if t.coef = 1 then [] else [.num t.coef]) ++ .k t.fwd t.idx :: t.factors.map .fac

/-- The factor is `theta[name]`, with or without power.
Models: `scaks/solvers/steady_state_solver.py` 268, 321-327. -/
def Piece.isTheta {K : Type} (name : Str) : Piece K → Bool
  | .fac f => decide (f.var = .theta ∧ f.name = name)
  | _ => false

/-- The last `theta[name]` of the text, with what stands before and after: the leading group of
the pattern is greedy.
Models: `scaks/solvers/steady_state_solver.py` 268, 278, 365-366. -/
def splitLast {K : Type} (name : Str) : List (Piece K) → Option (List (Piece K) × Nat × List (Piece K))
  | [] => none
  | x :: xs =>
    match splitLast name xs with
    | some (pre, p, post) => some (x :: pre, p, post)
    | none =>
      match x with
      | .fac f => if f.var = .theta ∧ f.name = name then some ([], f.pow, xs) else none
      | _ => none

/-- The first decimal digit.
Models: `scaks/solvers/steady_state_solver.py` 268 (the group with one digit). -/
def leadingDigit (n : Nat) : Nat := if n < 10 then n else leadingDigit (n / 10)

/-- The groups of the pattern. Of a power with several digits the pattern takes the first digit;
then the rest of the text is not matched and is lost. Without match the next access fails.
Models: `scaks/solvers/steady_state_solver.py` 268-279, 365-371. -/
def regexSplit {K : Type} (name : Str) (l : List (Piece K)) : Py (List (Piece K) × Nat × List (Piece K)) :=
  match splitLast name l with
  | none => .error .AttributeError
  | some (pre, p, post) => if p < 10 then .ok (pre, p, post) else .ok (pre, leadingDigit p, [])

/-- `__term_adsorbate_derivation`.
Models: `scaks/solvers/steady_state_solver.py` 256-306. -/
def derivTerm {K : Type} (name : Str) (l : List (Piece K)) : Py (List (Piece K)) := do
  let m ← regexSplit name l
  let coef := m.1 ++ m.2.2
  if m.2.1 = 1 then
    pure (if coef.isEmpty then [.num 1] else coef)
  else
    pure (.num m.2.1 :: coef ++ [.der name ((m.2.1 : Int) - 1)])

/-- The substitution of the free site by the total minus the coverages of its adsorbates. The
pattern used, `theta\['\*_*_s'\]` for the site `*_s`, does match the text `theta['*_s']`.
Models: `scaks/solvers/steady_state_solver.py` 338-354. -/
def substFree {K : Type} (site : Str) (total : K) (ads : List Str) : Piece K → Piece K
  | .fac f => if f.var = .theta ∧ f.name = site then .free total ads f.pow else .fac f
  | .der n p => if n = site then .free total ads p else .der n p
  | x => x

/-- `__total_term_adsorbate_derivation`: the derived text as a list of products with their signs.
Models: `scaks/solvers/steady_state_solver.py` 308-397. -/
def totalDeriv {K : Type} (o : MFOwner K) (a : Str) (l : List (Piece K)) : Py (List (Bool × List (Piece K))) :=
  if a ∉ o.net.ads then .error .ValueError
  else do
    let site ← siteNameOf a
    let total ← dictGet o.totals site
    let cls ← classifyAds o.net
    let onSite ← dictGet cls site
    if l.any (Piece.isTheta site) ∧ l.any (Piece.isTheta a) then do
      let m ← regexSplit a l
      let sitePart := m.1 ++ m.2.2
      let adsPart : List (Piece K) := [.fac ⟨.theta, a, m.2.1⟩]
      let d1 ← derivTerm a adsPart
      let d2 ← derivTerm site sitePart
      pure [(true, d1 ++ sitePart), (false, d2.map (substFree site total onSite) ++ adsPart)]
    else if l.any (Piece.isTheta site) then do
      let d ← derivTerm site l
      pure [(false, d.map (substFree site total onSite))]
    else if l.any (Piece.isTheta a) then do
      let d ← derivTerm a l
      pure [(true, d)]
    else pure [(true, [.num 0])]

/-- `poly_adsorbate_derivation` without its cache: the operator of a term stands before the first
product of its derivative only, as no parentheses are written.
Models: `scaks/solvers/steady_state_solver.py` 399-438. -/
def polyDeriv {K : Type} (o : MFOwner K) (a : Str) (q : Poly) : Py (List (Bool × List (Piece K))) := do
  let ds ← q.mapM fun t => do
    let d ← totalDeriv o a (termPieces t.2)
    pure (match d with
      | [] => []
      | (b, x) :: rest => (t.1 == b, x) :: rest)
  pure ds.flatten

/-- Python `x ** p` with an integer power.
Models: `scaks/solvers/steady_state_solver.py` 490 (`eval`). -/
def pyPow {K : Type} [Field K] [DecidableEq K] (x : K) (p : Int) : Py K :=
  if x = 0 ∧ p < 0 then .error .ZeroDivisionError else .ok (x ^ p)

/-- Evaluation of one factor of a derived product.
Models: `scaks/solvers/steady_state_solver.py` 490 (`eval`). -/
def evalPiece {K : Type} [Field K] [DecidableEq K] (env : Env K) : Piece K → Py K
  | .num n => .ok n
  | .k fwd i =>
    match (if fwd then env.kf else env.kr)[i]? with
    | some k => .ok k
    | none => .error .IndexError
  | .fac f => evalFactor env f
  | .der n p => do pyPow (← dictGet env.theta n) p
  | .free total ads p => do
    let xs ← ads.mapM (dictGet env.theta)
    pyPow (total - xs.sum) p

/-- Evaluation of a derived text.
Models: `scaks/solvers/steady_state_solver.py` 490 (`eval`). -/
def evalDerived {K : Type} [Field K] [DecidableEq K] (env : Env K) (l : List (Bool × List (Piece K))) : Py K := do
  let xs ← l.mapM fun t => do
    let ys ← t.2.mapM (evalPiece env)
    pure (if t.1 then ys.prod else -ys.prod)
  pure xs.sum

/-- `analytical_jacobian` for given rate constants.
Models: `scaks/solvers/steady_state_solver.py` 440-495. -/
def analyticalJacobian {K : Type} [Field K] [DecidableEq K] (o : MFOwner K) (k : List K × List K)
    (cvgs : List K) : Py (List (List K)) := do
  let qs ← o.net.ads.mapM (adsorbateDtheta o)
  if qs.length ≠ cvgs.length then .error .ParameterError
  else do
    let env ← mkEnv o k cvgs
    qs.mapM fun q => o.net.ads.mapM fun a => do
      let d ← polyDeriv o a q
      evalDerived env d

end Verif
