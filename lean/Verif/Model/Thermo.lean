import Verif.Model.Energy
import Verif.Model.Symbols
import Mathlib.Analysis.SpecialFunctions.Pow.Real
import Mathlib.Analysis.Real.Pi.Bounds
/-
`scaks/correctors/thermodynamic_corrector.py` 34-241: the two gas correction functions, and the
data base `scaks/database/thermo_data.py`. Floats are real numbers; messages to the log are not
modelled.
-/
namespace Verif

/-- The eight parameters of a Shomate equation.
Models: `scaks/correctors/thermodynamic_corrector.py` 62. -/
structure ShomateParams where
  A : ℚ
  B : ℚ
  C : ℚ
  D : ℚ
  E : ℚ
  F : ℚ
  G : ℚ
  H : ℚ

/-- Rotational symmetry number and temperatures.
Models: `scaks/database/thermo_data.py` 20-46 (decimal values taken as exact rationals). -/
def rotationTable : Dict Str (ℚ × List ℚ) := [
  (str! "H2_g", (2, [175 / 2])),
  (str! "D2_g", (2, [219 / 5])),
  (str! "N2_g", (2, [289 / 100])),
  (str! "O2_g", (2, [52 / 25])),
  (str! "Cl2_g", (2, [351 / 1000])),
  (str! "Br2_g", (2, [29 / 250])),
  (str! "I2_g", (2, [537 / 10000])),
  (str! "CO_g", (1, [139 / 50])),
  (str! "NO_g", (1, [49 / 20])),
  (str! "HCl_g", (1, [76 / 5])),
  (str! "HBr_g", (1, [61 / 5])),
  (str! "HI_g", (1, [943 / 100])),
  (str! "CO2_g", (2, [33 / 50])),
  (str! "CS2_g", (2, [643 / 10000])),
  (str! "N2O_g", (1, [61 / 100])),
  (str! "H2O_g", (2, [202 / 5, 211 / 10, 27 / 2])),
  (str! "D2O_g", (2, [2249 / 100, 264 / 25, 67 / 10])),
  (str! "H2S_g", (2, [151 / 10, 1309 / 100, 689 / 100])),
  (str! "SO2_g", (2, [327 / 100, 11 / 20, 47 / 100])),
  (str! "NH3_g", (3, [143 / 10, 143 / 10, 227 / 25])),
  (str! "CH4_g", (12, [38 / 5, 38 / 5, 38 / 5])),
  (str! "CCl4_g", (12, [413 / 5000, 413 / 5000, 413 / 5000]))]

/-- Vibrational temperatures.
Models: `scaks/database/thermo_data.py` 49-67. -/
def vibrationTable : Dict Str (List ℚ) := [
  (str! "H2_g", [6320]),
  (str! "N2_g", [3390]),
  (str! "O2_g", [2278]),
  (str! "CO_g", [3120]),
  (str! "HCl_g", [4330]),
  (str! "I2_g", [309]),
  (str! "NO_g", [2745]),
  (str! "CO2_g", [954, 1890, 3360]),
  (str! "N2O_g", [850, 1840, 3200]),
  (str! "C2H2_g", [911, 1044, 2820, 4690, 4830]),
  (str! "H2O_g", [2290, 5160, 5360]),
  (str! "NH3_g", [1360, 2330, 4780, 4880]),
  (str! "CH4_g", [1870, 2180, 4170, 4320]),
  (str! "CHCl3_g", [374, 523, 938, 1090, 1745, 4330])]

/-- The Shomate parameters: gas name, lower and upper temperature, `A` to `H`. The keys are
stored in the parsed form that lines 82-83 of the corrector compute from them.
Models: `scaks/database/thermo_data.py` 71-164, `scaks/correctors/thermodynamic_corrector.py` 82-83. -/
def shomateTable : List (Str × ℚ × ℚ × ShomateParams) := [
  (str! "H2_g", 298, 1000, ⟨16533089 / 500000, -11363417 / 1000000, 714551 / 62500, -1386437 / 500000, -79279 / 500000, -9980797 / 1000000, 86353987 / 500000, 0⟩),
  (str! "H2_g", 1000, 2500, ⟨18563083 / 1000000, 12257357 / 1000000, -1429893 / 500000, 134119 / 500000, 197799 / 100000, -573719 / 500000, 156288133 / 1000000, 0⟩),
  (str! "H2_g", 2500, 6000, ⟨1085339 / 25000, -4293079 / 1000000, 318107 / 250000, -24219 / 250000, -10266931 / 500000, -19257579 / 500000, 81040677 / 500000, 0⟩),
  (str! "CH4_g", 298, 1300, ⟨-703029 / 1000000, 1084773 / 10000, -4252157 / 100000, 1465697 / 250000, 135713 / 200000, -960547 / 12500, 1587163 / 10000, -748731 / 10000⟩),
  (str! "CH4_g", 1300, 1600, ⟨8581217 / 100000, 1126467 / 100000, -1057073 / 500000, 13819 / 100000, -2642221 / 100000, -1535327 / 10000, 2244143 / 10000, -748731 / 10000⟩),
  (str! "CO_g", 298, 1300, ⟨2556759 / 100000, 609613 / 100000, 63354 / 15625, -2671201 / 1000000, 131021 / 1000000, -1180089 / 10000, 454733 / 2000, -1105271 / 10000⟩),
  (str! "CO_g", 1300, 1600, ⟨351507 / 10000, 260019 / 200000, -205921 / 1000000, 271 / 20000, -164139 / 50000, -10227 / 80, 28964 / 125, -1105271 / 10000⟩),
  (str! "H2O_g", 100, 500, ⟨2268997 / 62500, -75351 / 3125, 6364111 / 100000, -97381 / 2500, -277 / 20000, -511983 / 50000, 23739431 / 100000, 0⟩),
  (str! "H2O_g", 500, 1700, ⟨7523 / 250, 3416257 / 500000, 1358687 / 200000, -31681 / 12500, 82139 / 1000000, -250881 / 1000, 2233967 / 10000, -302283 / 1250⟩),
  (str! "H2O_g", 1700, 6000, ⟨2098213 / 50000, 8622053 / 1000000, -74989 / 50000, 98119 / 1000000, -278941 / 25000, -2721797 / 10000, 2197809 / 10000, -302283 / 1250⟩),
  (str! "CO2_g", 298, 1200, ⟨499947 / 20000, 689837 / 12500, -3369137 / 100000, 7948387 / 1000000, -68319 / 500000, -161443 / 400, 2282431 / 10000, -491903 / 1250⟩),
  (str! "CO2_g", 1200, 6000, ⟨5816639 / 100000, 108803 / 40000, -492289 / 1000000, 9711 / 250000, -6447293 / 1000000, -2129593 / 5000, 21089 / 80, -491903 / 1250⟩),
  (str! "O2_g", 100, 700, ⟨1566117 / 50000, -2023531 / 100000, 72333 / 1250, -114082 / 3125, -3687 / 500000, -8903471 / 1000000, 493589 / 2000, 0⟩),
  (str! "O2_g", 700, 2000, ⟨600647 / 20000, 2193243 / 250000, -3988133 / 1000000, 788313 / 1000000, -741599 / 1000000, -283117 / 25000, 2361663 / 10000, 0⟩),
  (str! "O2_g", 2000, 6000, ⟨2091111 / 100000, 1072071 / 100000, -1010249 / 500000, 146449 / 1000000, 4622861 / 500000, 5337651 / 1000000, 475237 / 2000, 0⟩),
  (str! "NH3_g", 298, 1400, ⟨1999563 / 100000, 4977119 / 100000, -1537599 / 100000, 120073 / 62500, 94587 / 500000, -5330667 / 100000, 2038591 / 10000, -2294903 / 50000⟩),
  (str! "N2_g", 100, 500, ⟨2898641 / 100000, 926989 / 500000, -9647459 / 1000000, 1663537 / 100000, 117 / 1000000, -4335957 / 500000, 283021 / 1250, 0⟩),
  (str! "N2_g", 500, 2000, ⟨1950583 / 100000, 397741 / 20000, -1719707 / 200000, 171223 / 125000, 527601 / 1000000, -2467601 / 500000, 21239 / 100, 0⟩),
  (str! "N2O_g", 298, 1400, ⟨691997 / 25000, 2557449 / 50000, -1532227 / 50000, 6847911 / 1000000, -78953 / 500000, 3562467 / 50000, 596541 / 2500, 1025603 / 12500⟩),
  (str! "NO2_g", 298, 1200, ⟨1610857 / 100000, 303581 / 4000, -271937 / 5000, 1430777 / 100000, 239423 / 1000000, 327183 / 12500, 1202693 / 5000, 1654751 / 50000⟩),
  (str! "NO_g", 298, 1200, ⟨2383491 / 100000, 629439 / 50000, -1139011 / 1000000, -1497459 / 1000000, 107097 / 500000, 8335783 / 100000, 2371219 / 10000, 4514557 / 50000⟩),
  (str! "NO3_g", 298, 1200, ⟨280579 / 25000, 1663889 / 10000, -742229 / 5000, 2370299 / 50000, -176791 / 1000000, 3050429 / 50000, 2217679 / 10000, 8891 / 125⟩),
  (str! "HNO2_g", 298, 1200, ⟨1244987 / 50000, 9137563 / 100000, -3242307 / 50000, 1792007 / 100000, -134737 / 1000000, -2203399 / 25000, 2542671 / 10000, -3836749 / 50000⟩),
  (str! "HNO3_g", 298, 1200, ⟨1963229 / 100000, 1539599 / 10000, -579189 / 5000, 657591 / 20000, -124557 / 500000, -734409 / 5000, 2477049 / 10000, -67153 / 500⟩),
  (str! "HCN_g", 298, 1200, ⟨3269373 / 100000, 451841 / 20000, -2184571 / 500000, -407697 / 1000000, -282399 / 1000000, 1234811 / 10000, 2332597 / 10000, 168929 / 1250⟩),
  (str! "CH2CH2_g", 298, 1200, ⟨-159697 / 25000, 1844019 / 10000, -564859 / 5000, 2849593 / 100000, 15777 / 50000, 1204333 / 25000, 101973 / 625, 2623347 / 50000⟩),
  (str! "CH2O_g", 298, 1500, ⟨5193767 / 1000000, 9323249 / 100000, -4485457 / 100000, 7882279 / 1000000, 22047 / 40000, -1193591 / 10000, 2024663 / 10000, -289743 / 2500⟩),
  (str! "CH3OH_g", 298, 1500, ⟨-27240253104633033 / 50000000000000000, 949291839726847 / 6250000000000, -1957955898567797 / 25000000000000, 644260734835201 / 40000000000000, 49380897934744739 / 100000000000000000, -626 / 125, 20005003685507603 / 100000000000000, 0⟩),
  (str! "HCOOH_g", 298, 1500, ⟨19013761521126129 / 5000000000000000, 1920777236843271 / 12500000000000, -5290029233635579 / 62500000000000, 3259475541512301 / 200000000000000, 13860324986316691 / 50000000000000000, -616527 / 100000, 2129698972559699 / 10000000000000, 0⟩),
  (str! "CH3CH2OH_g", 273, 1300, ⟨6372731 / 1000000, 682533 / 2500, -1630101 / 10000, 3877719 / 100000, 334329 / 1000000, -29 / 4, 201, 0⟩)]
/-- `kB_J`. Models: `scaks/database/thermo_data.py` 6. -/
noncomputable def kBJ : ℝ := 1.38064852e-23
/-- `kB_eV`. Models: `scaks/database/thermo_data.py` 7. -/
noncomputable def kBeV : ℝ := 8.6173324e-5
/-- `h_J`. Models: `scaks/database/thermo_data.py` 10. -/
noncomputable def hJ : ℝ := 6.626070040e-34
/-- `h_eV`. Models: `scaks/database/thermo_data.py` 11. -/
noncomputable def heV : ℝ := 4.135667662e-15
/-- `P0`. Models: `scaks/database/thermo_data.py` 14. -/
noncomputable def P0 : ℝ := 101325
/-- `amu`. Models: `scaks/database/elements_data.py` 4. -/
noncomputable def amu : ℝ := 1.66053904e-27
/-- `_kJmol2eV`. Models: `scaks/correctors/thermodynamic_corrector.py` 15. -/
noncomputable def kJmol2eV : ℝ := 0.01036427

/-- The nested function `H`.
Models: `scaks/correctors/thermodynamic_corrector.py` 61-66. -/
noncomputable def shomateH (T : ℝ) (p : ShomateParams) : ℝ :=
  let t := T / 1000
  p.A * t + (p.B / 2) * t ^ 2 + (p.C / 3) * t ^ 3 + (p.D / 4) * t ^ 4 - p.E / t + p.F - p.H

/-- The nested function `S`.
Models: `scaks/correctors/thermodynamic_corrector.py` 68-72. -/
noncomputable def shomateS (T : ℝ) (p : ShomateParams) : ℝ :=
  let t := T / 1000
  p.A * Real.log t + p.B * t + (p.C / 2) * t ^ 2 + (p.D / 3) * t ^ 3 - p.E / (2 * t ^ 2) + p.G

/-- The nested function `Cp`.
Models: `scaks/correctors/thermodynamic_corrector.py` 74-78. -/
noncomputable def shomateCp (T : ℝ) (p : ShomateParams) : ℝ :=
  let t := T / 1000
  p.A + p.B * t + p.C * t ^ 2 + p.D * t ^ 3 + p.E / t ^ 2

/-- The value in the temperature range of the parameters.
Models: `scaks/correctors/thermodynamic_corrector.py` 93-107. -/
noncomputable def shomateInRange (T : ℝ) (p : ShomateParams) : ℝ :=
  let dH := (298.15 * shomateCp 298.15 p / 1000 + (shomateH T p - shomateH 298.15 p)) * kJmol2eV
  let dS := shomateS T p * (kJmol2eV / 1000)
  dH - T * dS

/-- The value below the temperature range of the parameters.
Models: `scaks/correctors/thermodynamic_corrector.py` 111-119. -/
noncomputable def shomateBelow (T Tmin : ℝ) (p : ShomateParams) : ℝ :=
  let dH := (T * shomateCp Tmin p / 1000) * kJmol2eV
  let dS := shomateS Tmin p * (kJmol2eV / 1000)
  dH - T * dS

open Classical in
/-- The loop over the table; without a usable entry the result is 0. The flag `not_there` is
true at the end exactly if the loop was not left by `break`.
Models: `scaks/correctors/thermodynamic_corrector.py` 80-134. -/
noncomputable def shomateLoop : List (Str × ℚ × ℚ × ShomateParams) → Str → ℝ → ℝ
  | [], _, _ => 0
  | (key, tmin, tmax, p) :: rest, name, T =>
    if key ≠ name then shomateLoop rest name T
    else if (tmin : ℝ) ≤ T ∧ T ≤ (tmax : ℝ) then shomateInRange T p
    else if T < (tmin : ℝ) ∧ tmin < 300 then shomateBelow T tmin p
    else shomateLoop rest name T

/-- `shomate_correction`.
Models: `scaks/correctors/thermodynamic_corrector.py` 34-137. -/
noncomputable def shomateCorrection (T : ℝ) (name : Str) : Py ℝ :=
  match chemFormula name with
  | .error e => .error e
  | .ok f => if f.type ≠ .gas then .ok 0 else .ok (shomateLoop shomateTable name T)

open Classical in
/-- The rotational partition function. Above the ratio 0.3 the code uses an attribute `logger`
that the object does not have. With neither one nor three temperatures `qr` is unbound.
Models: `scaks/correctors/thermodynamic_corrector.py` 203-220. -/
noncomputable def rotationQ (T : ℝ) (sigma : ℝ) (thetas : List ℝ) : Py ℝ :=
  match thetas with
  | [theta] =>
    if theta / T ≤ 0.01 then .ok (T / (sigma * theta))
    else if theta / T ≥ 0.3 then .error .AttributeError
    else .ok (T / (sigma * theta) * (1 + theta / (3 * T) + theta ^ 2 / (15 * T ^ 2)))
  | [a, b, c] => .ok (Real.pi ^ (1 / 2 : ℝ) / sigma * (T ^ 3 / (a * b * c)) ^ (1 / 2 : ℝ))
  | _ => .error .UnboundLocalError

/-- The vibrational partition function; `reduce` of an empty list raises `TypeError`.
Models: `scaks/correctors/thermodynamic_corrector.py` 222-232. -/
noncomputable def vibrationQ (T : ℝ) (thetas : List ℝ) : Py ℝ :=
  match thetas with
  | [theta] => .ok (Real.exp (-theta / (2 * T)) / (1 - Real.exp (-theta / T)))
  | [] => .error .TypeError
  | a :: b :: l => .ok ((b :: l).foldl (fun x y => x * (1 / (1 - Real.exp (-y / T))))
      (1 / (1 - Real.exp (-a / T))))

open Classical in
/-- `entropy_correction` with the default mass; `pressures` are the pressures in the species
definitions, `p` the optional argument. Modelled for positive temperatures (a negative one gives
complex numbers in the code).
Models: `scaks/correctors/thermodynamic_corrector.py` 139-241. -/
noncomputable def entropyCorrection (pressures : Dict Str ℝ) (T : ℝ) (p? : Option ℝ) (name : Str) : Py ℝ := do
  let f ← chemFormula name
  if f.type ≠ .gas then return 0
  match Dict.get? rotationTable f.speciesSite, Dict.get? vibrationTable f.speciesSite with
  | some (sigma, rot), some vib =>
    let m ← molecularMass f.species
    let p ← match p? with
      | some p => pure p
      | none => do return P0 * (← dictGet pressures f.speciesSite)
    if p = 0 then .error .ZeroDivisionError
    let qt := kBJ * T / p * (2 * Real.pi * (amu * (m : ℝ)) * kBJ * T / hJ ^ 2) ^ (3 / 2 : ℝ)
    if T = 0 then .error .ZeroDivisionError
    let qr ← rotationQ T sigma (rot.map (↑))
    let qv ← vibrationQ T (vib.map (↑))
    if qt * qr * qv ≤ 0 then .error .ValueError
    return -kBeV * T * Real.log (qt * qr * qv)
  | _, _ => return 0

end Verif
