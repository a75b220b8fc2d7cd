import Verif.Py.Basic
import Mathlib.Algebra.Order.Ring.Rat
import Mathlib.Algebra.Order.Field.Rat
import Mathlib.Data.Rat.Floor
import Mathlib.Algebra.Order.Ring.Abs
/-
The choice of colours for pictures: class `NeuQuant` of `scaks/plotters/images2gif.py`. The lines are read as Python 2, for which they were written: `/` of whole numbers rounds down.
With Python 3 the division gives a float and `biasRadius >> 6` in line 917 raises for every picture. The numbers of the network are exact.
-/
namespace Verif
open Dict

/-- A row of the network: three numbers, named blue, green and red in the code.
Models: `scaks/plotters/images2gif.py` 757. -/
abbrev QRow := ℚ × ℚ × ℚ

/-- The arrays of the learning.
Models: `scaks/plotters/images2gif.py` 757-763. -/
structure QNet where
  network : List QRow
  freq : List ℚ
  bias : List ℚ
  deriving DecidableEq

/-- `setUpArrays`; the third row is not set and holds anything. With fewer than three colours an index is out of range.
Models: `scaks/plotters/images2gif.py` 801-821. -/
def qSetUp (n : Nat) (junk : QRow) : Py QNet :=
  if n < 3 then .error .IndexError
  else
    let shade : Nat → ℚ := fun i => 255 * (i : ℚ) / ((n - 3 : Nat) : ℚ)
    .ok ⟨[(0, 0, 0), (255, 255, 255), junk] ++ (List.range (n - 3)).map (fun i => (shade i, shade i, shade i)),
      List.replicate n (1 / (n : ℚ)), List.replicate n 0⟩

/-- A row moved towards a colour by a factor.
Models: `scaks/plotters/images2gif.py` 828-830, 862. -/
def qMove (a : ℚ) (c p : QRow) : QRow := (p.1 - a * (p.1 - c.1), p.2.1 - a * (p.2.1 - c.2.1), p.2.2 - a * (p.2.2 - c.2.2))

/-- `altersingle`.
Models: `scaks/plotters/images2gif.py` 825-830. -/
def qAlterSingle (a : ℚ) (i : Nat) (c : QRow) (net : List QRow) : List QRow := net.modify i (qMove a c)

/-- `geta`, without its cache: the arrays in it are not changed.
Models: `scaks/plotters/images2gif.py` 832-842. -/
def qFactors (alpha : ℚ) (rad : Nat) : List ℚ :=
  let mid := (rad * 2 - 1) / 2
  let q : List ℚ := (List.range mid).reverse.map (fun k : Nat => (k : ℚ)) ++ (-1 :: (List.range mid).map fun k : Nat => (k : ℚ))
  (q.map fun x => alpha * ((rad : ℚ) * rad - x * x) / ((rad : ℚ) * rad)).set mid 0

/-- The place of a bound of a slice.
Models: Python's `l[a:b]`, `scaks/plotters/images2gif.py` 859-861. -/
def sliceBound (n : Nat) (i : Int) : Nat := if i < 0 then ((n : Int) + i).toNat else min i.toNat n

/-- `l[a:b]`.
Models: Python's `l[a:b]`, `scaks/plotters/images2gif.py` 859-861. -/
def intSlice {α : Type} (l : List α) (a b : Int) : List α := (l.take (sliceBound l.length b)).drop (sliceBound l.length a)

/-- `alterneigh`. Arrays of different lengths raise; that numpy repeats an array of length one is left out (no such case occurs, `C117_neighbours`).
Models: `scaks/plotters/images2gif.py` 844-862. -/
def qAlterNeigh (alpha : ℚ) (rad i : Nat) (c : QRow) (net : List QRow) : Py (List QRow) :=
  let n : Int := net.length
  let (lo, start) : Int × Int := if (i : Int) - rad ≥ 2 then ((i : Int) - rad, 0) else (2, 2 - ((i : Int) - rad))
  let (hi, stop) : Int × Int := if (i : Int) + rad ≤ n then ((i : Int) + rad, (rad : Int) * 2 - 1) else (n, n - ((i : Int) + rad))
  let a := intSlice (qFactors alpha rad) start stop
  let p := intSlice net (lo + 1) hi
  if a.length ≠ p.length then .error .ValueError
  else .ok (net.take (sliceBound net.length (lo + 1)) ++ List.zipWith (fun a p => qMove a c p) a p ++ net.drop (sliceBound net.length (lo + 1) + p.length))

/-- The distance of a row from a colour.
Models: `scaks/plotters/images2gif.py` 888. -/
def qDist (c p : QRow) : ℚ := |p.1 - c.1| + |p.2.1 - c.2.1| + |p.2.2 - c.2.2|

/-- The place of the least number, the first one of several, given the best so far and its place.
Models: `np.argmin`, `scaks/plotters/images2gif.py` 889, 1079, and the inner loop of `inxbuild`, 987-993. -/
def argminFrom {α : Type} [LinearOrder α] : α → Nat → Nat → List α → Nat
  | _, pos, _, [] => pos
  | best, pos, k, x :: l => if x < best then argminFrom x k (k + 1) l else argminFrom best pos (k + 1) l

/-- `np.argmin`.
Models: `scaks/plotters/images2gif.py` 889, 891, 1079. -/
def argmin {α : Type} [LinearOrder α] : List α → Py Nat
  | [] => .error .ValueError
  | x :: l => .ok (argminFrom x 0 1 l)

/-- `contest`: the row to be moved, and the new frequencies and biases.
Models: `scaks/plotters/images2gif.py` 881-896. -/
def qContest (c : QRow) (s : QNet) : Py (Nat × QNet) := do
  let dists := (s.network.drop 3).map (qDist c)
  let best ← argmin dists
  let bestBias ← argmin (List.zipWith (· - ·) dists (s.bias.drop 3))
  let freq := s.freq.take 3 ++ (s.freq.drop 3).map (· * (1 - 1 / 1024))
  let bias := s.bias.take 3 ++ List.zipWith (fun b f => b + 1 * f) (s.bias.drop 3) (freq.drop 3)
  pure (3 + bestBias, ⟨s.network, freq.modify (3 + best) (· + 1 / 1024), bias.modify (3 + best) (· - 1)⟩)

/-- `specialFind`.
Models: `scaks/plotters/images2gif.py` 901-906. -/
def qSpecial (c : QRow) (s : QNet) : Option Nat := (s.network.take 3).findIdx? (fun p => decide (p = c))

/-- What is learnt from one pixel; the first one gives the background.
Models: `scaks/plotters/images2gif.py` 946-957. -/
def qPixel (i alpha rad : Nat) (c : QRow) (s : QNet) : Py QNet :=
  let s : QNet := if i = 0 then ⟨s.network.set 2 c, s.freq, s.bias⟩ else s
  match qSpecial c s with
  | some _ => .ok s
  | none => do
    let (j, s) ← qContest c s
    if j ≥ 3 then
      let a : ℚ := (alpha : ℚ) / 1024
      let net := qAlterSingle a j c s.network
      if rad > 0 then
        let net ← qAlterNeigh a rad j c net
        pure ⟨net, s.freq, s.bias⟩
      else pure ⟨net, s.freq, s.bias⟩
    else pure s

/-- The radius.
Models: `scaks/plotters/images2gif.py` 917-919, 965-967. -/
def qRadius (biasRadius : Nat) : Nat := let r := biasRadius / 64; if r ≤ 1 then 0 else r

/-- The step from pixel to pixel.
Models: `scaks/plotters/images2gif.py` 923-932. -/
def qStep (len : Nat) : Nat :=
  if len % 499 ≠ 0 then 499 else if len % 491 ≠ 0 then 491 else if len % 487 ≠ 0 then 487 else 503

/-- The loop of the learning, for a number of pixels still to be taken. Messages are left out.
Models: `scaks/plotters/images2gif.py` 936-967. -/
def qLoop (pixels : List QRow) (alphadec delta step : Nat) : Nat → Nat → Nat → Nat → Nat → QNet → Py QNet
  | 0, _, _, _, _, s => .ok s
  | k + 1, i, pos, alpha, biasRadius, s =>
    match pixels[pos]? with
    | none => .error .IndexError
    | some c => do
      let s ← qPixel i alpha (qRadius biasRadius) c s
      if delta = 0 then .error .ZeroDivisionError
      else if (i + 1) % delta = 0 then
        qLoop pixels alphadec delta step k (i + 1) ((pos + step) % pixels.length) (alpha - alpha / alphadec) (biasRadius - biasRadius / 30) s
      else qLoop pixels alphadec delta step k (i + 1) ((pos + step) % pixels.length) alpha biasRadius s

/-- `learn`.
Models: `scaks/plotters/images2gif.py` 908-970. -/
def qLearn (pixels : List QRow) (samplefac : Nat) (s : QNet) : Py QNet :=
  if samplefac = 0 then .error .ZeroDivisionError
  else
    let samples := pixels.length / samplefac
    qLoop pixels (30 + (samplefac - 1) / 3) (samples / 100) (qStep pixels.length) samples 0 0 1024 (s.network.length / 8 * 64) s

/-- A row of the map of colours: three bytes and a number.
Models: `scaks/plotters/images2gif.py` 758. -/
abbrev CRow := Nat × Nat × Nat × Nat

/-- A number rounded and kept within a byte; `int` cuts off towards zero.
Models: `scaks/plotters/images2gif.py` 975-977. -/
def qByte (x : ℚ) : Nat :=
  let y := 1 / 2 + x
  let z : Int := if 0 ≤ y then ⌊y⌋ else ⌈y⌉
  (min 255 (max 0 z)).toNat

/-- `fix`.
Models: `scaks/plotters/images2gif.py` 972-979. -/
def qFix (s : QNet) : List CRow := s.network.zipIdx.map fun x => (qByte x.1.1, qByte x.1.2.1, qByte x.1.2.2, x.2)

/-- Places `a` to `b - 1` of an array set to one value.
Models: `scaks/plotters/images2gif.py` 1004-1005, 1009-1010. -/
def fillRange {α : Type} (l : List α) (a b : Nat) (x : α) : List α := (List.range' a (b - a)).foldl (fun l j => l.set j x) l

/-- The loop of `inxbuild`, for a number of rows still to be placed. Places of the index that do not exist are left out: bytes are below 256.
Models: `scaks/plotters/images2gif.py` 984-1007. -/
def qIndexLoop : Nat → Nat → List CRow → List (Option Nat) → Nat → Nat → Py (List CRow × List (Option Nat) × Nat × Nat)
  | 0, _, cm, idx, prev, start => .ok (cm, idx, prev, start)
  | k + 1, i, cm, idx, prev, start =>
    match cm[i]? with
    | none => .error .IndexError
    | some p =>
      let small := argminFrom p.2.1 i (i + 1) ((cm.drop (i + 1)).map fun r => r.2.1)
      match cm[small]? with
      | none => .error .IndexError
      | some q =>
        let cm := if i ≠ small then (cm.set i q).set small p else cm
        if q.2.1 ≠ prev then
          qIndexLoop k (i + 1) cm (fillRange (idx.set prev (some ((start + i) / 2))) (prev + 1) q.2.1 (some i)) q.2.1 i
        else qIndexLoop k (i + 1) cm idx prev start

/-- `inxbuild`: the map of colours in order and the index.
Models: `scaks/plotters/images2gif.py` 981-1010. -/
def qIndex (cm : List CRow) : Py (List CRow × List (Option Nat)) := do
  let (cm', idx, prev, start) ← qIndexLoop cm.length 0 cm (List.replicate 256 none) 0 0
  pure (cm', fillRange (idx.set prev (some ((start + (cm.length - 1)) / 2))) (prev + 1) 256 (some (cm.length - 1)))

/-- A pixel: red, green, blue and alpha.
Models: `scaks/plotters/images2gif.py` 779-780. -/
abbrev Rgba := Nat × Nat × Nat × Nat

/-- The three bytes of a pixel as they are taken out of a 32 bit number, on a machine with the low byte first.
Models: `scaks/plotters/images2gif.py` 784, 941-944. -/
def pixelRow (p : Rgba) : QRow :=
  let w := p.1 + p.2.1 * 256 + p.2.2.1 * 65536 + p.2.2.2 * 16777216
  let r := (w / 65536) % 256
  let g := (w / 256) % 256
  let b := w % 256
  ((b : ℚ), (g : ℚ), (r : ℚ))

/-- The constructor, for a picture given by its pixels.
Models: `scaks/plotters/images2gif.py` 770-789. -/
def neuQuant (junk : QRow) (pixels : List Rgba) (rgba : Bool) (samplefac colors : Nat) : Py (List CRow × List (Option Nat)) := do
  if pixels.length < 503 then .error .IOError
  else if ¬ rgba then .error .IOError
  else
    let s ← qSetUp colors junk
    let s ← qLearn (pixels.map pixelRow) samplefac s
    qIndex (qFix s)

/-- The squared distance of a colour from a row.
Models: `scaks/plotters/images2gif.py` 1078-1079. -/
def sqDist (c : Nat × Nat × Nat) (r : CRow) : Int :=
  ((r.1 : Int) - c.1) * ((r.1 : Int) - c.1) + ((r.2.1 : Int) - c.2.1) * ((r.2.1 : Int) - c.2.1) + ((r.2.2.1 : Int) - c.2.2) * ((r.2.2.1 : Int) - c.2.2)

/-- `inxsearch`.
Models: `scaks/plotters/images2gif.py` 1076-1080. -/
def qSearch (cm : List CRow) (c : Nat × Nat × Nat) : Py Nat := argmin (cm.map (sqDist c))

/-- `convert`.
Models: `scaks/plotters/images2gif.py` 1072-1074. -/
def qConvert (cm : List CRow) (c : Nat × Nat × Nat) : Py (Nat × Nat × Nat) := do
  let i ← qSearch cm c
  match cm[i]? with
  | some r => pure (r.1, r.2.1, r.2.2.1)
  | none => .error .IndexError

/-- The loop of `quantize_without_scipy` over the pixels, with the colours converted so far. The last step, done by the library of pictures with the palette, is left out.
Models: `scaks/plotters/images2gif.py` 1054-1069. -/
def qPixels (cm : List CRow) : Dict (Nat × Nat × Nat) (Nat × Nat × Nat) → List Rgba → Py (List Rgba)
  | _, [] => .ok []
  | memo, p :: l => do
    let key := (p.1, p.2.1, p.2.2.1)
    let val ← match get? memo key with
      | some v => pure v
      | none => qConvert cm key
    let rest ← qPixels cm (Dict.set memo key val) l
    pure ((val.1, val.2.1, val.2.2, p.2.2.2) :: rest)

/-- The palette: the bytes of all rows, filled up with zeros.
Models: `scaks/plotters/images2gif.py` 1013-1027. -/
def qPalette (cm : List CRow) : List Nat := cm.flatMap (fun r => [r.1, r.2.1, r.2.2.1]) ++ List.replicate ((256 - cm.length) * 3) 0

end Verif
