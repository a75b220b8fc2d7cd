import Verif.Py.Basic
/-
Reading animated GIF files, `scaks/plotters/images2gif.py`. What Pillow decodes is an input.
-/
namespace Verif

/-- The exceptions told apart here; the last are all others.
Models: `scaks/plotters/images2gif.py` 611-646. -/
inductive ReadError
  | EOFError | MemoryError | RuntimeError | IOError
  | other (name : Str)
  deriving DecidableEq

/-- A file as Pillow decodes it: what `convert` and `asarray` give for each frame in turn, and what `seek` raises after the last one
(`EOFError` unless the file is damaged).
Models: `scaks/plotters/images2gif.py` 624-642. -/
structure GifFrames (A : Type) where
  frames : List (Except ReadError A)
  stop : ReadError

/-- The images read so far, and the exception that ended the loop; it never ends otherwise. `dims` is the number of dimensions of an array.
Models: `scaks/plotters/images2gif.py` 628-640. -/
def readLoop {A : Type} (dims : A → Nat) (stop : ReadError) : List (Except ReadError A) → List A × ReadError
  | [] => ([], stop)
  | .error e :: _ => ([], e)
  | .ok a :: fs =>
    if dims a = 0 then ([], .MemoryError)
    else
      let r := readLoop dims stop fs
      (a :: r.1, r.2)

/-- `except EOFError: pass`.
Models: `scaks/plotters/images2gif.py` 641-642. -/
def readFrames {A : Type} (dims : A → Nat) (g : GifFrames A) : Except ReadError (List A) :=
  match readLoop dims g.stop g.frames with
  | (images, .EOFError) => .ok images
  | (_, e) => .error e

/-- `readGif`. The first `seek` is outside the loop. With `asNumpy` the arrays are given, else what `fromarray` makes of them.
Models: `scaks/plotters/images2gif.py` 603-653. -/
def readGif {A B : Type} (dims : A → Nat) (fromArray : A → Except ReadError B) (pil numpy isFile asNumpy : Bool) (opened : Except ReadError (GifFrames A)) :
    Except ReadError (List A ⊕ List B) :=
  if !pil then .error .RuntimeError
  else if !numpy then .error .RuntimeError
  else if !isFile then .error .IOError
  else match opened with
    | .error e => .error e
    | .ok g =>
      if g.frames.isEmpty then .error g.stop
      else do
        let images ← readFrames dims g
        if asNumpy then pure (.inl images)
        else do
          let images2 ← images.mapM fromArray
          pure (.inr images2)

end Verif
