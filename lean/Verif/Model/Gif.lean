import Verif.Py.Basic
import Verif.Spec.Gif
import Verif.Model.Util
import Mathlib.Data.Rat.Floor
/-
Writing animated GIF files, `scaks/plotters/images2gif.py`. What Pillow does (palettes, packing of
pixels) is taken as a function.
-/
namespace Verif
open Gif (Bytes)

/-- An image as a numpy array of bytes: rows, columns, channels (one for an array of two
dimensions), and the channels at a row and column; only those within the size are looked at.
Models: the arrays of `scaks/plotters/images2gif.py` 96-134, 304-358. -/
structure Img where
  h : Nat
  w : Nat
  ch : Nat
  px : Nat → Nat → List UInt8

/-- An image as the user gives it: a Pillow image (with its pixels after `convert()`), an array of
bytes, of floats, of other numbers (integers here), or something else. Floats are exact here.
Models: `scaks/plotters/images2gif.py` 104-130. -/
inductive RawImg
  | pil (im : Img)
  | u8 (shape : List Nat) (px : Nat → Nat → List UInt8)
  | float (shape : List Nat) (px : Nat → Nat → List ℚ)
  | int (shape : List Nat) (px : Nat → Nat → List Int)
  | other

/-- A checked image; `arr` says that it is an array.
Models: `scaks/plotters/images2gif.py` 104-130. -/
structure GifImg where
  im : Img
  arr : Bool

/-- An intensity between 0 and 1 as a byte.
Models: `scaks/plotters/images2gif.py` 114-119. -/
def floatByte (x : ℚ) : UInt8 :=
  let x := if x < 0 then 0 else x
  let x := if x > 1 then 1 else x
  UInt8.ofNat (pyInt (x * 255)).toNat

/-- The check of the shape.
Models: `scaks/plotters/images2gif.py` 123-130. -/
def imgOfShape (shape : List Nat) (px : Nat → Nat → List UInt8) : Py Img :=
  match shape with
  | [h, w] => .ok ⟨h, w, 1, px⟩
  | [h, w, c] => if c = 3 ∨ c = 4 then .ok ⟨h, w, c, px⟩ else .error .ValueError
  | _ => .error .ValueError

/-- One image of `checkImages`. Other numbers are taken modulo 256.
Models: `scaks/plotters/images2gif.py` 104-131. -/
def checkImage : RawImg → Py GifImg
  | .pil im => .ok ⟨im, false⟩
  | .u8 s px => do pure ⟨← imgOfShape s px, true⟩
  | .float s px => do pure ⟨← imgOfShape s fun i j => (px i j).map floatByte, true⟩
  | .int s px => do pure ⟨← imgOfShape s fun i j => (px i j).map fun n => UInt8.ofNat (n % 256).toNat, true⟩
  | .other => .error .ValueError

/-- `checkImages`.
Models: `scaks/plotters/images2gif.py` 96-134. -/
def checkImages (ims : List RawImg) : Py (List GifImg) := ims.mapM checkImage

/-! ## Sub-rectangles -/

/-- The difference of two pixels, summed over the channels. Bytes are subtracted modulo 256, and
`abs` changes nothing for bytes; the sums are of a larger type.
Models: `scaks/plotters/images2gif.py` 333-335. -/
def pixelDiff (a b : List UInt8) : Nat := (List.zipWith (fun x y => (x - y).toNat) a b).sum

/-- `diff.sum(0)` at a column.
Models: `scaks/plotters/images2gif.py` 337. -/
def colDiff (im prev : Img) (j : Nat) : Nat := ((List.range im.h).map fun i => pixelDiff (im.px i j) (prev.px i j)).sum

/-- `diff.sum(1)` at a row.
Models: `scaks/plotters/images2gif.py` 338. -/
def rowDiff (im prev : Img) (i : Nat) : Nat := ((List.range im.w).map fun j => pixelDiff (im.px i j) (prev.px i j)).sum

/-- `np.argwhere` of a vector.
Models: `scaks/plotters/images2gif.py` 337-338. -/
def argwhere (n : Nat) (f : Nat → Nat) : List Nat := (List.range n).filter fun k => decide (f k ≠ 0)

/-- The part between the limits; `x0`, `x1`, `y0`, `y1`.
Models: `scaks/plotters/images2gif.py` 339-345. -/
def changeBox (im prev : Img) : Nat × Nat × Nat × Nat :=
  match argwhere im.w (colDiff im prev), argwhere im.h (rowDiff im prev) with
  | x :: xs, y :: ys => (x, (x :: xs).getLast (by simp) + 1, y, (y :: ys).getLast (by simp) + 1)
  | _, _ => (0, 2, 0, 2)

/-- `im[y0:y1,x0:x1]`.
Models: `scaks/plotters/images2gif.py` 348. -/
def cropImg (im : Img) (b : Nat × Nat × Nat × Nat) : Img :=
  ⟨min b.2.2.2 im.h - b.2.2.1, min b.2.1 im.w - b.1, im.ch, fun i j => im.px (i + b.2.2.1) (j + b.1)⟩

/-- The loop over the images after the first. Arrays of different shapes cannot be subtracted; the
broadcasting of numpy over sides of length one is left out.
Models: `scaks/plotters/images2gif.py` 328-351. -/
def subRectLoop : Img → List Img → Py (List (Img × (Nat × Nat)))
  | _, [] => .ok []
  | prev, im :: rest =>
    if im.h = prev.h ∧ im.w = prev.w ∧ im.ch = prev.ch then do
      let b := changeBox im prev
      let l ← subRectLoop im rest
      pure ((cropImg im b, (b.1, b.2.2.1)) :: l)
    else .error .ValueError

/-- `getSubRectangles`: the images cut out and their places.
Models: `scaks/plotters/images2gif.py` 304-358. -/
def getSubRectangles : List Img → Py (List (Img × (Nat × Nat)))
  | [] => .ok []
  | [im] => .ok [(im, (0, 0))]
  | im :: rest => do
    let l ← subRectLoop im rest
    pure ((im, (0, 0)) :: l)

/-- The argument `subRectangles`; an empty list counts as `False`.
Models: `scaks/plotters/images2gif.py` 574-581. -/
inductive SubArg
  | off
  | auto
  | given (l : List (Int × Int))

/-- `handleSubRectangles`, and the other branch of its caller; the default of `dispose` with it.
Models: `scaks/plotters/images2gif.py` 249-301, 574-581. -/
def placeImages (sub : SubArg) (ims : List GifImg) : Py (List (GifImg × (Int × Int)) × Int) :=
  match sub with
  | .off => .ok (ims.map (·, (0, 0)), 2)
  | .given [] => .ok (ims.map (·, (0, 0)), 2)
  | .given (_ :: l) => if l.length + 1 = ims.length then .ok (ims.zip ((0, 0) :: l), 1) else .error .ValueError
  | .auto => do
    let l ← getSubRectangles (ims.map (·.im))
    pure (l.map fun p => (⟨p.1, true⟩, ((p.2.1 : Int), (p.2.2 : Int))), 1)

/-! ## Bytes -/

/-- `intToBin`.
Models: `scaks/plotters/images2gif.py` 137-143. -/
def intToBin (i : Int) : Py Bytes :=
  if 0 ≤ i ∧ i < 65536 then .ok [UInt8.ofNat (i.toNat % 256), UInt8.ofNat (i.toNat / 256)] else .error .OverflowError

/-- An image made by Pillow, with what its GIF plugin gives for it: table of colours, image
descriptor with the code size, and the packed pixels in chunks.
Models: `scaks/plotters/images2gif.py` 90-94, 428-429, 457-458. -/
structure PilImg where
  w : Nat
  h : Nat
  palette : Bytes
  imdes : Bytes
  data : List Bytes
  deriving DecidableEq

/-- `getheaderAnim`.
Models: `scaks/plotters/images2gif.py` 153-163. -/
def headerAnim (im : PilImg) : Py Bytes := do
  let w ← intToBin im.w
  let h ← intToBin im.h
  pure ([0x47, 0x49, 0x46, 0x38, 0x39, 0x61] ++ w ++ h ++ [0x87, 0x00, 0x00])

/-- `getImageDescriptor` with a position.
Models: `scaks/plotters/images2gif.py` 166-197. -/
def imageDescriptor (im : PilImg) (xy : Int × Int) : Py Bytes := do
  let x ← intToBin xy.1
  let y ← intToBin xy.2
  let w ← intToBin im.w
  let h ← intToBin im.h
  pure ([0x2C] ++ x ++ y ++ w ++ h ++ [0x87])

/-- `getAppExt` with a whole number.
Models: `scaks/plotters/images2gif.py` 200-217. -/
def appExt (loops : Int) : Py Bytes :=
  let loops := if loops = 0 then 65535 else loops
  if loops = 1 then .ok []
  else do
    let n ← intToBin loops
    pure ([0x21, 0xFF, 0x0B] ++ [0x4E, 0x45, 0x54, 0x53, 0x43, 0x41, 0x50, 0x45, 0x32, 0x2E, 0x30] ++ [0x03, 0x01] ++ n ++ [0x00])

/-- `getGraphicsControlExt` with the index 255. The lowest two bits of any whole number are its
residue modulo four.
Models: `scaks/plotters/images2gif.py` 220-246. -/
def graphicsControl (duration : ℚ) (dispose : Int) (transparent : Bool) : Py Bytes := do
  let d ← intToBin (pyInt (duration * 100))
  pure ([0x21, 0xF9, 0x04] ++ [UInt8.ofNat ((dispose % 4).toNat * 4 + if transparent then 1 else 0)] ++ d ++ [255] ++ [0x00])

/-- The table of colours used most, the first of them.
Models: `scaks/plotters/images2gif.py` 427-434. -/
def mostUsed (ps : List Bytes) : Py Bytes :=
  match (ps.map fun p => ps.count p).max? with
  | none => .error .ValueError
  | some m => match ps.find? fun p => decide (ps.count p = m) with
    | some p => .ok p
    | none => .error .ValueError

/-- The bytes of a frame.
Models: `scaks/plotters/images2gif.py` 454-487. -/
def frameBytes (transparent : Bool) (globalPalette : Bytes) (im : PilImg) (duration : ℚ) (dispose : Int) (xy : Int × Int) : Py Bytes := do
  let g ← graphicsControl duration dispose transparent
  let lid ← imageDescriptor im xy
  pure ((if im.palette ≠ globalPalette ∨ dispose ≠ 2 then g ++ lid ++ im.palette ++ [0x08] else g ++ im.imdes) ++ im.data.flatten)

/-- What goes with a frame: duration, disposal and position by number.
Models: `scaks/plotters/images2gif.py` 463-468. -/
def frameArgs (durations : List ℚ) (disposes : List Int) (xys : List (Int × Int)) (n : Nat) : Py (ℚ × Int × (Int × Int)) :=
  match durations[n]?, disposes[n]?, xys[n]? with
  | some d, some p, some xy => .ok (d, p, xy)
  | _, _, _ => .error .IndexError

/-- The loop over the frames: what is written, up to the first error.
Models: `scaks/plotters/images2gif.py` 436-491. -/
def writeFrames (transparent : Bool) (globalPalette : Bytes) (durations : List ℚ) (disposes : List Int) (xys : List (Int × Int)) :
    Nat → List PilImg → Bytes × Py Unit
  | _, [] => ([], .ok ())
  | n, im :: rest =>
    match frameArgs durations disposes xys n >>= fun a => frameBytes transparent globalPalette im a.1 a.2.1 a.2.2 with
    | .error e => ([], .error e)
    | .ok b =>
      let r := writeFrames transparent globalPalette durations disposes xys (n + 1) rest
      (b ++ r.1, r.2)

/-- What gets into the file of header, table of colours, extension and frames: nothing after an error.
Models: `scaks/plotters/images2gif.py` 442-452, 489-492. -/
def gifBytes (globalPalette : Bytes) (hd ext : Py Bytes) (frames : Bytes × Py Unit) : Bytes × Py Unit :=
  match hd, ext, frames with
  | .error e, _, _ => ([], .error e)
  | .ok _, .error e, _ => ([], .error e)
  | .ok hd, .ok ext, (b, .ok ()) => (hd ++ globalPalette ++ ext ++ b ++ [0x3B], .ok ())
  | .ok hd, .ok ext, (b, .error e) => (hd ++ globalPalette ++ ext ++ b, .error e)

/-- `writeGifToFile`: the bytes written, and the error if any.
Models: `scaks/plotters/images2gif.py` 419-494. -/
def writeGifToFile (transparent : Bool) (ims : List PilImg) (durations : List ℚ) (loops : Int) (xys : List (Int × Int)) (disposes : List Int) :
    Bytes × Py Unit :=
  match mostUsed (ims.map (·.palette)), ims with
  | .error e, _ => ([], .error e)
  | .ok _, [] => ([], .error .ValueError)
  | .ok g, im :: rest => gifBytes g (headerAnim im) (appExt loops) (writeFrames transparent g durations disposes xys 0 (im :: rest))

/-! ## The whole function -/

/-- One value for all frames or a list.
Models: `scaks/plotters/images2gif.py` 563-571, 583-590. -/
inductive PerFrame (α : Type)
  | all (x : α)
  | each (l : List α)

/-- A list with an entry for each of `n` frames.
Models: `scaks/plotters/images2gif.py` 563-571, 586-590. -/
def PerFrame.list {α : Type} (n : Nat) : PerFrame α → Py (List α)
  | .all x => .ok (List.replicate n x)
  | .each l => if l.length = n then .ok l else .error .ValueError

/-- The argument `repeat`: a truth value or a number.
Models: `scaks/plotters/images2gif.py` 554-560. -/
def loopsOf : Bool ⊕ Int → Int
  | .inl false => 1
  | .inl true => 0
  | .inr n => n

/-- `convertImagesToPIL`: whether transparency is on, and the images. `pil` is what Pillow makes of
an image, given whether pixels are to be made transparent. The algorithm of `nq` always fails: it
rejects small images and shifts a float for the others (newer versions of Pillow fail before).
Models: `scaks/plotters/images2gif.py` 361-416, 776-788, 914. -/
def convertImages (pil : Bool → Img → PilImg) (nq : Int) (ims : List GifImg) : Py (Bool × List PilImg) :=
  let transparent := ims.any fun g => g.arr && g.im.ch == 4
  if 1 ≤ nq then
    match ims with
    | [] => .ok (transparent, [])
    | g :: _ => if g.im.w * g.im.h < 503 then .error .IOError else .error .TypeError
  else do
    let l ← ims.mapM fun g =>
      if g.arr = true ∧ g.im.ch ≠ 1 ∧ g.im.ch ≠ 3 ∧ g.im.ch ≠ 4 then .error .AttributeError
      else if transparent = true ∧ g.im.ch ≠ 4 then .error .IndexError
      else .ok (pil transparent g.im)
    pure (transparent, l)

/-- The arguments of `writeGif` besides file and images.
Models: `scaks/plotters/images2gif.py` 501-502. -/
structure GifArgs where
  duration : PerFrame ℚ
  rep : Bool ⊕ Int
  nq : Int
  sub : SubArg
  dispose : Option (PerFrame Int)

/-- What `writeGif` does before it opens the file.
Models: `scaks/plotters/images2gif.py` 546-592. -/
def prepareGif (pil : Bool → Img → PilImg) (ims : List RawImg) (a : GifArgs) :
    Py (Bool × List PilImg × List ℚ × List (Int × Int) × List Int) := do
  let ims ← checkImages ims
  let durations ← a.duration.list ims.length
  let placed ← placeImages a.sub ims
  let disposes ← (a.dispose.getD (.all placed.2)).list placed.1.length
  let conv ← convertImages pil a.nq (placed.1.map (·.1))
  pure (conv.1, conv.2, durations, placed.1.map (·.2), disposes)

/-- `writeGif`: the new contents of the file, `none` if it is left as it was, and the error if any.
Models: `scaks/plotters/images2gif.py` 501-599. -/
def writeGif (pil : Bool → Img → PilImg) (ims : List RawImg) (a : GifArgs) : Option Bytes × Py Unit :=
  match prepareGif pil ims a with
  | .error e => (none, .error e)
  | .ok (tr, ps, durations, xys, disposes) =>
    let r := writeGifToFile tr ps durations (loopsOf a.rep) xys disposes
    (some r.1, r.2)

end Verif
