import Verif.Model.Kmc
import Verif.Model.Tables
/-
The text of the event file, `scaks/solvers/kmc_plugins/event_analysis.py`. The table library is a parameter: a function of the
field names and of the cells; alignment is left to it. Rates and probabilities are exact.
-/
namespace Verif

/-- `str` of an integer.
Models: `scaks/solvers/kmc_plugins/event_analysis.py` 116, 134. -/
def intText (n : Int) : Str := if n < 0 then '-' :: Nat.toDigits 10 n.natAbs else Nat.toDigits 10 n.natAbs

/-- `"{:.2f}%".format(p*100.0)` for a probability, which is not negative.
Models: `scaks/solvers/kmc_plugins/event_analysis.py` 129. -/
def percentText (p : ℚ) : Str :=
  let m := (roundHalfEven (p * 10000)).toNat
  Nat.toDigits 10 (m / 100) ++ '.' :: fixedDigits 2 m ++ ['%']

/-- The cells of a row. A rate has at least eight characters, so that the width six adds nothing.
Models: `scaks/solvers/kmc_plugins/event_analysis.py` 123-130. -/
def eventCells (picked : Nat) (r : EventRow ℚ) : List Str :=
  [(if r.idx = picked then str! "-> (" ++ Nat.toDigits 10 r.idx ++ str! ") " ++ r.rxn
    else '(' :: Nat.toDigits 10 r.idx ++ str! ") " ++ r.rxn),
   Nat.toDigits 10 r.sites, sciText 2 r.rate, percentText r.prob]

/-- `__get_table_string`.
Models: `scaks/solvers/kmc_plugins/event_analysis.py` 59-60, 110-137. -/
def eventBlock (render : List Str → List (List Str) → Str) (step : Int) (rows : List (EventRow ℚ)) (picked : Nat) : Str :=
  str! "\nStep: " ++ intText (step - 1) ++ str! "\nTotal available sites number: " ++ Nat.toDigits 10 (rows.map (·.sites)).sum ++ str! "\n" ++
    render [str! "process", str! "available sites", str! "total rate", str! "probability"] (rows.map (eventCells picked)) ++
    str! "\n('->' points to the process picked in step " ++ intText step ++ str! ")\n"

/-- The beginning of the file.
Models: `scaks/solvers/kmc_plugins/event_analysis.py` 66-88. -/
def eventHeader (render : List Str → List (List Str) → Str) (mapping : List Str) : Str :=
  List.replicate 43 '=' ++ str! "\n\nVisualized displaying of KMC Event Analysis\n\n" ++ List.replicate 43 '=' ++ str! "\n\n" ++
    Nat.toDigits 10 mapping.length ++ str! " processes listed below:\n" ++
    render [str! "process index", str! "reaction"] (mapping.zipIdx.map fun x => [Nat.toDigits 10 x.2, x.1]) ++ str! "\n"

/-- The file after a run: every registered step has its number, its table and the picked process.
Models: `scaks/solvers/kmc_plugins/event_analysis.py` 66-137, 170-187. -/
def eventFile (render : List Str → List (List Str) → Str) (bufferSize : Nat) (mapping : List Str)
    (steps : List (Int × List (EventRow ℚ) × Nat)) : Str :=
  eventHeader render mapping ++
    (EventState.written bufferSize ⟨[], [], [], 0⟩ steps).flatMap fun x => eventBlock render x.1 x.2.1 x.2.2

end Verif
