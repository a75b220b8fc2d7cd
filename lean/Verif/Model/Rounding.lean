import Verif.Model.MeanField
/-
The mean field solver with numbers of finite precision. The solver computes with `mpmath`, whose numbers have
`decimal_precision` decimal digits and exponents of any size: every operation gives the exact result, rounded. The other
files take these operations to be exact; here they are a parameter.
-/
namespace Verif
open Dict

/-- The operations on the numbers of the solver.
Models: `scaks/solvers/mean_field_solver.py` 54-66. -/
structure Arith where
  add : ℝ → ℝ → ℝ
  sub : ℝ → ℝ → ℝ
  mul : ℝ → ℝ → ℝ
  div : ℝ → ℝ → ℝ
  pow : ℝ → Nat → ℝ
  exp : ℝ → ℝ

/-- `get_kTST` of the steady state solver. Changing the sign is exact. The constants are taken as they are written.
Models: `scaks/solvers/solver_base.py` 35-41. -/
noncomputable def rdKTST (A : Arith) (Ga T : ℝ) : Py ℝ :=
  if A.mul kBeV T = 0 then .error .ZeroDivisionError
  else .ok (A.mul (A.div (A.mul kBeV T) heV) (A.exp (A.div (-Ga) (A.mul kBeV T))))

/-- `get_rxn_rates_TST` without pressures.
Models: `scaks/solvers/solver_base.py` 107-170. -/
noncomputable def rdRatesTST (A : Arith) (o : RateOwner) (rel : RelDict ℝ) (rxn : Str) : Py (ℝ × ℝ) := do
  let v ← relOf o.rxns rel rxn
  let rf ← rdKTST A v.gaf o.T
  let rr ← rdKTST A v.gar o.T
  pure (rf, rr)

/-- `get_rate_constants` by transition state theory.
Models: `scaks/solvers/mean_field_solver.py` 204-237. -/
noncomputable def rdConstants (A : Arith) (o : RateOwner) (rel : RelDict ℝ) : Py (List ℝ × List ℝ) :=
  if rel.gar.isNone then .error .ParameterError
  else do
    let l ← o.rxns.mapM (rdRatesTST A o rel)
    pure (l.map (·.1), l.map (·.2))

/-- The loop entering the free-site coverages: the coverages are added up from zero in the order of the list.
Models: `scaks/solvers/mean_field_solver.py` 147-154. -/
noncomputable def rdFreeSites (A : Arith) (totals : Dict Str ℝ) (cls : Dict Str (List Str)) : Dict Str ℝ → List Str → Py (Dict Str ℝ)
  | d, [] => .ok d
  | d, s :: ss => do
    let total ← dictGet totals s
    let sps ← dictGet cls s
    let cs ← sps.mapM (dictGet d)
    rdFreeSites A totals cls (setDefault d s (A.sub total (cs.foldl A.add 0))) ss

/-- `_cvg_tuple2dict`.
Models: `scaks/solvers/mean_field_solver.py` 131-156. -/
noncomputable def rdCvgDict (A : Arith) (o : MFOwner ℝ) (cvgs : List ℝ) : Py (Dict Str ℝ) := do
  let cls ← classifyAds o.net
  let d ← adsCoverages o.net.ads cvgs [] o.net.ads
  rdFreeSites A o.totals cls d o.net.sites

/-- The environment of the executed text.
Models: `scaks/solvers/mean_field_solver.py` 402-411. -/
noncomputable def rdEnv (A : Arith) (o : MFOwner ℝ) (k : List ℝ × List ℝ) (cvgs : List ℝ) : Py (Env ℝ) := do
  let theta ← rdCvgDict A o cvgs
  let d ← getData o
  pure ⟨k.1, k.2, theta, d.1, d.2⟩

/-- Evaluation of one factor: a power one is not written.
Models: `scaks/solvers/mean_field_solver.py` 334-356, 420-422 (`exec`). -/
noncomputable def rdFactor (A : Arith) (env : Env ℝ) (f : Factor) : Py ℝ := do
  let x ← match f.var with
    | .theta => dictGet env.theta f.name
    | .p => dictGet env.p f.name
    | .c => dictGet env.c f.name
  pure (if f.pow = 1 then x else A.pow x f.pow)

/-- Evaluation of one term, from left to right: a coefficient one is not written.
Models: `scaks/solvers/mean_field_solver.py` 326-358, 420-422 (`exec`), `scaks/solvers/steady_state_solver.py` 153-169. -/
noncomputable def rdTerm (A : Arith) (env : Env ℝ) (t : Term) : Py ℝ := do
  let k ← match (if t.fwd then env.kf else env.kr)[t.idx]? with
    | some k => .ok k
    | none => .error .IndexError
  let xs ← t.factors.mapM (rdFactor A env)
  pure (xs.foldl A.mul (if t.coef = 1 then k else A.mul t.coef k))

/-- `get_rates` for given rate constants.
Models: `scaks/solvers/mean_field_solver.py` 371-432. -/
noncomputable def rdRates (A : Arith) (o : MFOwner ℝ) (k : List ℝ × List ℝ) (cvgs : List ℝ) : Py (List ℝ × List ℝ) := do
  let env ← rdEnv A o k cvgs
  let ts ← o.rxns.mapM (rateTerms o)
  let rfs ← ts.mapM fun t => rdTerm A env t.1
  let rrs ← ts.mapM fun t => rdTerm A env t.2
  pure (rfs, rrs)

/-- `get_net_rates`.
Models: `scaks/solvers/mean_field_solver.py` 434-459. -/
noncomputable def rdNetRates (A : Arith) (o : MFOwner ℝ) (k : List ℝ × List ℝ) (cvgs : List ℝ) : Py (List ℝ) := do
  let r ← rdRates A o k cvgs
  pure (List.zipWith A.sub r.1 r.2)

/-- Evaluation of a sum of terms with signs, from left to right. The first sign is always plus and is not written.
Models: `scaks/solvers/steady_state_solver.py` 172, 195, 250-251 (`exec`). -/
noncomputable def rdPoly (A : Arith) (env : Env ℝ) (q : Poly) : Py ℝ := do
  let xs ← q.mapM fun t => do
    let x ← rdTerm A env t.2
    pure (t.1, x)
  match xs with
  | [] => pure 0
  | (b, x) :: l => pure (l.foldl (fun s y => if y.1 then A.add s y.2 else A.sub s y.2) (if b then x else -x))

/-- `steady_state_function` for given rate constants.
Models: `scaks/solvers/steady_state_solver.py` 201-254. -/
noncomputable def rdSteady (A : Arith) (o : MFOwner ℝ) (k : List ℝ × List ℝ) (cvgs : List ℝ) : Py (List ℝ) := do
  let env ← rdEnv A o k cvgs
  let qs ← o.net.ads.mapM (adsorbateDtheta o)
  qs.mapM (rdPoly A env)

/-- One entry of the product of a row and a matrix, from left to right (`numpy`, which adds up products of objects from the first).
Models: `scaks/solvers/mean_field_solver.py` 535-538. -/
noncomputable def rdDot (A : Arith) (xs ms : List ℝ) : ℝ :=
  match List.zipWith A.mul xs ms with
  | [] => 0
  | x :: l => l.foldl A.add x

/-- `get_tof` for given rate constants, all gases and liquids.
Models: `scaks/solvers/mean_field_solver.py` 512-548. -/
noncomputable def rdTof (A : Arith) (o : MFOwner ℝ) (k : List ℝ × List ℝ) (cvgs : List ℝ) : Py (List ℝ) := do
  let net ← rdNetRates A o k cvgs
  let m ← o.net.stoichMatrices
  pure ((List.range o.net.reaproCols.length).map fun j => rdDot A net (m.2.map fun row => (((-(row.getD j 0) : Int)) : ℝ)))

/-- `get_reversibilities`. The conversion `float` is a parameter.
Models: `scaks/solvers/mean_field_solver.py` 461-484. -/
noncomputable def rdReversibilities (A : Arith) (toFloat : ℝ → ℝ) (rfs rrs : List ℝ) : Py (List ℝ) :=
  if rfs.length ≠ rrs.length then .error .ValueError
  else (rfs.zip rrs).mapM fun x => if x.1 = 0 then .error .ZeroDivisionError else .ok (toFloat (A.div x.2 x.1))

end Verif
