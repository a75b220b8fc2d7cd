/-
The GIF 89a format, as far as animations need it: what a decoder reads from a file and what a
player shows. Written from the format, independently of `scaks/plotters/images2gif.py`.
-/
namespace Verif.Gif

abbrev Bytes := List UInt8

/-- Two bytes, the lower one first. -/
def u16 (lo hi : UInt8) : Nat := lo.toNat + 256 * hi.toNat

/-- Data in blocks: a length, as many bytes, and so on up to a length of zero. The data and the rest
of the file. The first argument bounds the number of blocks. -/
def subBlocks : Nat → Bytes → Option (Bytes × Bytes)
  | 0, _ => none
  | _ + 1, [] => none
  | f + 1, n :: rest =>
    if n = 0 then some ([], rest)
    else if rest.length < n.toNat then none
    else match subBlocks f (rest.drop n.toNat) with
      | none => none
      | some (d, r) => some (rest.take n.toNat ++ d, r)

/-- What is said about a frame before it: how to go on after it (0 or 1 leave it, 2 clear its
area, 3 take it away), hundredths of seconds, and the transparent colour. -/
structure Control where
  dispose : Nat
  delay : Nat
  transparent : Option UInt8
  deriving DecidableEq

/-- A frame: its control, place, size, colours and packed pixels. -/
structure Frame where
  control : Option Control
  x : Nat
  y : Nat
  w : Nat
  h : Nat
  palette : Bytes
  code : UInt8
  data : Bytes
  deriving DecidableEq

/-- A file: the size of the screen, how often to repeat (zero is for ever, `none` not at all), and
the frames. -/
structure File where
  w : Nat
  h : Nat
  loops : Option Nat
  frames : List Frame
  deriving DecidableEq

/-- The length of the table of colours announced by the flags. -/
def tableLength (flags : UInt8) : Nat := if 128 ≤ flags.toNat then 3 * 2 ^ (flags.toNat % 8 + 1) else 0

/-- Read as many bytes. -/
def takeN (n : Nat) (b : Bytes) : Option (Bytes × Bytes) := if b.length < n then none else some (b.take n, b.drop n)

/-- The data of an application extension that asks for repetition. -/
def loopCount (d : Bytes) : Option Nat :=
  if d.take 12 = [0x4E, 0x45, 0x54, 0x53, 0x43, 0x41, 0x50, 0x45, 0x32, 0x2E, 0x30, 0x01] then
    match d.drop 12 with
    | [lo, hi] => some (u16 lo hi)
    | _ => none
  else none

/-- A graphic control extension. -/
def readControl (d : Bytes) : Option Control :=
  match d with
  | [flags, lo, hi, index] =>
    some ⟨flags.toNat / 4 % 8, u16 lo hi, if flags.toNat % 2 = 1 then some index else none⟩
  | _ => none

/-- An image after its separator: frame and rest. -/
def readImage (fuel : Nat) (globalTable : Bytes) (c : Option Control) (b : Bytes) : Option (Frame × Bytes) :=
  match b with
  | x0 :: x1 :: y0 :: y1 :: w0 :: w1 :: h0 :: h1 :: flags :: rest =>
    match takeN (tableLength flags) rest with
    | none => none
    | some (table, rest) =>
      match rest with
      | [] => none
      | code :: rest =>
        match subBlocks fuel rest with
        | none => none
        | some (d, rest) =>
          some (⟨c, u16 x0 x1, u16 y0 y1, u16 w0 w1, u16 h0 h1, if 128 ≤ flags.toNat then table else globalTable, code, d⟩, rest)
  | _ => none

/-- The blocks after the header up to the trailer, which must end the file. -/
def readBlocks (globalTable : Bytes) : Nat → Option Control → Option Nat → Bytes → Option (Option Nat × List Frame)
  | 0, _, _, _ => none
  | _ + 1, _, _, [] => none
  | f + 1, c, loops, b0 :: rest =>
    if b0 = 0x3B then (if rest = [] then some (loops, []) else none)
    else if b0 = 0x2C then
      match readImage (rest.length + 1) globalTable c rest with
      | none => none
      | some (fr, rest) => match readBlocks globalTable f none loops rest with
        | none => none
        | some (l, frs) => some (l, fr :: frs)
    else if b0 = 0x21 then
      match rest with
      | [] => none
      | label :: rest =>
        match subBlocks (rest.length + 1) rest with
        | none => none
        | some (d, rest) =>
          if label = 0xFF then readBlocks globalTable f c (match loopCount d with | some n => some n | none => loops) rest
          else if label = 0xF9 then
            match readControl d with
            | none => none
            | some c => readBlocks globalTable f (some c) loops rest
          else readBlocks globalTable f c loops rest
    else none

/-- A whole file. -/
def readFile (b : Bytes) : Option File :=
  if b.take 6 = [0x47, 0x49, 0x46, 0x38, 0x39, 0x61] then
    match b.drop 6 with
    | w0 :: w1 :: h0 :: h1 :: flags :: _ :: _ :: rest =>
      match takeN (tableLength flags) rest with
      | none => none
      | some (table, rest) =>
        match readBlocks table (rest.length + 1) none none rest with
        | none => none
        | some (loops, frames) => some ⟨u16 w0 w1, u16 h0 h1, loops, frames⟩
    | _ => none
  else none

/-- Data put in blocks. -/
def blocksOf (chunks : List Bytes) : Bytes := (chunks.map fun c => UInt8.ofNat c.length :: c).flatten ++ [0]

/-! ## What a player shows -/

/-- A picture by rows and columns. -/
abbrev Canvas (P : Type) := Nat → Nat → P

/-- A picture to be drawn: place, size, pixels, and what happens after it. -/
structure Drawn (P : Type) where
  x : Nat
  y : Nat
  w : Nat
  h : Nat
  px : Canvas P
  dispose : Nat

/-- A frame as a picture; `colours` unpacks data of some width and height with a table of colours. -/
def Frame.drawn {P : Type} (colours : Bytes → Bytes → Nat → Nat → Canvas P) (f : Frame) : Drawn P :=
  ⟨f.x, f.y, f.w, f.h, colours f.palette f.data f.w f.h, match f.control with | none => 0 | some c => c.dispose⟩

/-- The screen with the picture drawn on it. -/
def Drawn.on {P : Type} (d : Drawn P) (c : Canvas P) : Canvas P := fun i j =>
  if d.y ≤ i ∧ i < d.y + d.h ∧ d.x ≤ j ∧ j < d.x + d.w then d.px (i - d.y) (j - d.x) else c i j

/-- The screen after the picture has been shown. -/
def Drawn.after {P : Type} (d : Drawn P) (background : P) (c : Canvas P) : Canvas P :=
  if d.dispose = 2 then fun i j => if d.y ≤ i ∧ i < d.y + d.h ∧ d.x ≤ j ∧ j < d.x + d.w then background else c i j
  else if d.dispose = 3 then c
  else d.on c

/-- The screens a player shows one after the other. -/
def play {P : Type} (background : P) : Canvas P → List (Drawn P) → List (Canvas P)
  | _, [] => []
  | c, d :: l => d.on c :: play background (d.after background c) l

end Verif.Gif
