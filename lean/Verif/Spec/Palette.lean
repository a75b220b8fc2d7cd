import Verif.Model.NeuQuant
/-
What is meant by the choice of colours: which row learns and by how much, which pixels are looked at, and what the index says.
-/
namespace Verif

/-- The factor of a neighbour at a distance. -/
def nearFactor (alpha : ℚ) (rad d : Nat) : ℚ := if d = 0 then 0 else alpha * ((rad : ℚ) * rad - ((d : ℚ) - 1) * ((d : ℚ) - 1)) / ((rad : ℚ) * rad)

/-- The distance of two places. -/
def rowGap (m i : Nat) : Nat := (m - i) + (i - m)

/-- All three numbers lie between 0 and 255. -/
def InByte (p : QRow) : Prop := (0 ≤ p.1 ∧ p.1 ≤ 255) ∧ (0 ≤ p.2.1 ∧ p.2.1 ≤ 255) ∧ (0 ≤ p.2.2 ∧ p.2.2 ≤ 255)

/-- The frequencies after a contest whose nearest row is `best`. -/
def freqAfter (best : Nat) (s : QNet) : List ℚ := (s.freq.take 3 ++ (s.freq.drop 3).map (· * (1 - 1 / 1024))).modify best (· + 1 / 1024)

/-- The biases after a contest whose nearest row is `best`. -/
def biasAfter (best : Nat) (s : QNet) : List ℚ :=
  (s.bias.take 3 ++ List.zipWith (fun b f => b + 1 * f) (s.bias.drop 3) ((s.freq.drop 3).map (· * (1 - 1 / 1024)))).modify best (· - 1)

/-- The sum of the differences of the three numbers. -/
def cityDist (c p : QRow) : ℚ := |c.1 - p.1| + |c.2.1 - p.2.1| + |c.2.2 - p.2.2|

/-- The place at a part of the way from a row to a colour. -/
def towards (f : ℚ) (p c : QRow) : QRow := (p.1 + f * (c.1 - p.1), p.2.1 + f * (c.2.1 - p.2.1), p.2.2 + f * (c.2.2 - p.2.2))

/-- The nearest row of those that learn. -/
def NearestRow (c : QRow) (s : QNet) (best : Nat) : Prop :=
  3 ≤ best ∧ ∃ p, s.network[best]? = some p ∧ ∀ (m : Nat) (q : QRow), 3 ≤ m → s.network[m]? = some q → cityDist c p ≤ cityDist c q

/-- The row with the least distance after its bias is taken off. -/
def BiasedRow (c : QRow) (s : QNet) (j : Nat) : Prop :=
  3 ≤ j ∧ ∃ p b, s.network[j]? = some p ∧ s.bias[j]? = some b ∧ ∀ (m : Nat) (q : QRow) (d : ℚ), 3 ≤ m → s.network[m]? = some q → s.bias[m]? = some d →
        cityDist c p - b ≤ cityDist c q - d

/-- The learning from a list of colours, one after the other. -/
def learnFrom (alphadec delta : Nat) : List QRow → Nat → Nat → Nat → QNet → Py QNet
  | [], _, _, _, s => .ok s
  | c :: l, i, alpha, biasRadius, s =>
    match qPixel i alpha (qRadius biasRadius) c s with
    | .error e => .error e
    | .ok s =>
      if delta = 0 then .error .ZeroDivisionError
      else if (i + 1) % delta = 0 then learnFrom alphadec delta l (i + 1) (alpha - alpha / alphadec) (biasRadius - biasRadius / 30) s
      else learnFrom alphadec delta l (i + 1) alpha biasRadius s

/-- The pixels that are looked at: every `step`-th one, starting again at the front when the end is reached. -/
def sampled {α : Type} (pixels : List α) (step : Nat) (k : Nat) : List α := (List.range k).filterMap fun j : Nat => pixels[(j * step) % pixels.length]?

/-- How many rows have a green below a number. -/
def below (cm : List CRow) (g : Nat) : Nat := cm.countP fun r => decide (r.2.1 < g)

/-- The middle of the places of the rows with a given green; the place where they would be when there are none; never beyond the last place. -/
def middle (cm : List CRow) (g : Nat) : Nat := (below cm g + min (below cm (g + 1)) (cm.length - 1)) / 2

/-- The square of the distance of two colours. -/
def apart (a b : Nat × Nat × Nat) : Int := ((a.1 : Int) - b.1) ^ 2 + ((a.2.1 : Int) - b.2.1) ^ 2 + ((a.2.2 : Int) - b.2.2) ^ 2

/-- The colour of a row of the map. -/
def CRow.colour (r : CRow) : Nat × Nat × Nat := (r.1, r.2.1, r.2.2.1)

/-- The colour of a pixel. -/
def Rgba.colour (p : Rgba) : Nat × Nat × Nat := (p.1, p.2.1, p.2.2.1)

/-- A pixel made of bytes. -/
def Rgba.IsBytes (p : Rgba) : Prop := p.1 < 256 ∧ p.2.1 < 256 ∧ p.2.2.1 < 256 ∧ p.2.2.2 < 256

end Verif
