import Verif.Model.Jacobian
/-
The cache of derived texts, shared by all solvers, `scaks/solvers/steady_state_solver.py` 399-495 and
`scaks/descriptors/descriptors.py` 375-399.
-/
namespace Verif
open Dict

/-- The keyword arguments of `poly_adsorbate_derivation`: the adsorbate and the text
`dtheta_dt[row] = poly`, given by its parts; equal texts are taken to have equal parts.
Models: `scaks/solvers/steady_state_solver.py` 399-417. -/
structure DerivKey where
  ads : Str
  row : Nat
  poly : Poly
  deriving DecidableEq

/-- A derived text. Models: `scaks/solvers/steady_state_solver.py` 437. -/
abbrev Derived (K : Type) := List (Bool × List (Piece K))

/-- The results kept by the descriptor; there is one descriptor for all solvers.
Models: `scaks/descriptors/descriptors.py` 378-380. -/
abbrev DerivCache (K : Type) := Dict DerivKey (Derived K)

/-- `poly_adsorbate_derivation` with its cache.
Models: `scaks/descriptors/descriptors.py` 386-399, `scaks/solvers/steady_state_solver.py` 399-438. -/
def cachedDeriv {K : Type} (o : MFOwner K) (c : DerivCache K) (key : DerivKey) : Py (Derived K) × DerivCache K :=
  match get? c key with
  | some d => (.ok d, c)
  | none =>
    match polyDeriv o key.ads key.poly with
    | .ok d => (.ok d, c.set key d)
    | .error e => (.error e, c)

/-- One row: derive and evaluate for each adsorbate in turn.
Models: `scaks/solvers/steady_state_solver.py` 484-491. -/
def cachedRow {K : Type} [Field K] [DecidableEq K] (o : MFOwner K) (env : Env K) (row : Nat) (q : Poly) :
    List Str → DerivCache K → Py (List K) × DerivCache K
  | [], c => (.ok [], c)
  | a :: as, c =>
    match cachedDeriv o c ⟨a, row, q⟩ with
    | (.error e, c) => (.error e, c)
    | (.ok d, c) =>
      match evalDerived env d with
      | .error e => (.error e, c)
      | .ok x =>
        match cachedRow o env row q as c with
        | (.error e, c) => (.error e, c)
        | (.ok xs, c) => (.ok (x :: xs), c)

/-- All rows.
Models: `scaks/solvers/steady_state_solver.py` 482-491. -/
def cachedRows {K : Type} [Field K] [DecidableEq K] (o : MFOwner K) (env : Env K) : Nat → List Poly → DerivCache K → Py (List (List K)) × DerivCache K
  | _, [], c => (.ok [], c)
  | row, q :: qs, c =>
    match cachedRow o env row q o.net.ads c with
    | (.error e, c) => (.error e, c)
    | (.ok r, c) =>
      match cachedRows o env (row + 1) qs c with
      | (.error e, c) => (.error e, c)
      | (.ok rs, c) => (.ok (r :: rs), c)

/-- `analytical_jacobian` with the cache, for given rate constants.
Models: `scaks/solvers/steady_state_solver.py` 440-495. -/
def cachedJacobian {K : Type} [Field K] [DecidableEq K] (o : MFOwner K) (k : List K × List K) (cvgs : List K) (c : DerivCache K) :
    Py (List (List K)) × DerivCache K :=
  match (do
    let qs ← o.net.ads.mapM (adsorbateDtheta o)
    if qs.length ≠ cvgs.length then .error .ParameterError
    else do
      let env ← mkEnv o k cvgs
      pure (qs, env)) with
  | .error e => (.error e, c)
  | .ok (qs, env) => cachedRows o env 0 qs c

/-- One use of the Jacobian by some model.
Models: the calls at `scaks/solvers/steady_state_solver.py` 728, 787. -/
structure JacobianUse (K : Type) where
  owner : MFOwner K
  k : List K × List K
  cvgs : List K

/-- The cache after a history of uses by any models.
Models: `scaks/descriptors/descriptors.py` 378-399. -/
def cacheAfter {K : Type} [Field K] [DecidableEq K] (c : DerivCache K) (uses : List (JacobianUse K)) : DerivCache K :=
  uses.foldl (fun c u => (cachedJacobian u.owner u.k u.cvgs c).2) c

end Verif
