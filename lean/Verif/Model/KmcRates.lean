import Verif.Model.Rates
import Verif.Model.Kmc
/-
The rates that the lattice solver gives to its processes, `scaks/solvers/kmc_solver.py` 146-154.
-/
namespace Verif

/-- The rates of a process definition: always with pressures. An algorithm that is neither of the two leaves both rates
unassigned, and their first use raises.
Models: `scaks/solvers/kmc_solver.py` 146-154, 179-183. -/
noncomputable def kmcRates (o : RateOwner) (algo : RateAlgo) (rel : RelDict ℝ) (rxn : Str) : Py (ℝ × ℝ) :=
  match algo with
  | .CT => ratesCT o rel true rxn
  | .TST => ratesTST o rel true rxn
  | .other => .error .UnboundLocalError

/-- The lattice solver of a model with these settings and energies.
Models: `scaks/solvers/kmc_solver.py` 128-154. -/
noncomputable def latticeOwner (o : RateOwner) (algo : RateAlgo) (rel : RelDict ℝ) (types : List Str) : KmcOwner ℝ :=
  ⟨o.rxns, types, kmcRates o algo rel⟩

end Verif
