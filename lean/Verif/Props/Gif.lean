import Verif.Model.Gif
import Verif.Lemmas.Py
import Verif.Lemmas.Network
import Mathlib.Data.List.Forall2
/-
Properties C91 and C92: animated GIF files.
-/
namespace Verif
open Gif (Bytes Canvas Drawn play u16 blocksOf)

/-! ## C91 Sub-rectangles -/

/-- Every pixel has as many numbers as the image has channels. -/
def Img.Ok (im : Img) : Prop := ∀ i j, i < im.h → j < im.w → (im.px i j).length = im.ch

/-- The picture shows the image. -/
def Shows (c : Canvas (List UInt8)) (im : Img) : Prop := ∀ i j, i < im.h → j < im.w → c i j = im.px i j

/-- A cut-out drawn at its place. -/
def drawnAt (dispose : Nat) (p : Img × (Nat × Nat)) : Drawn (List UInt8) := ⟨p.2.1, p.2.2, p.1.w, p.1.h, p.1.px, dispose⟩

theorem byte_sub_zero {x y : UInt8} : (x - y).toNat = 0 ↔ x = y := by
  have hx := x.toNat_lt
  have hy := y.toNat_lt
  rw [← UInt8.toNat_inj, UInt8.toNat_sub]
  omega

theorem pixelDiff_zero : ∀ {a b : List UInt8}, a.length = b.length → (pixelDiff a b = 0 ↔ a = b)
  | [], [], _ => by simp [pixelDiff]
  | x :: a, y :: b, h => by
    have ih := pixelDiff_zero (a := a) (b := b) (by simpa using h)
    unfold pixelDiff at ih ⊢
    simp only [List.zipWith_cons_cons, List.sum_cons, Nat.add_eq_zero_iff, byte_sub_zero, ih, List.cons.injEq]

theorem natSum_zero : ∀ {l : List Nat}, l.sum = 0 ↔ ∀ x ∈ l, x = 0
  | [] => by simp
  | a :: l => by
    rw [List.sum_cons, Nat.add_eq_zero_iff, natSum_zero (l := l)]
    simp

theorem rangeSum_pos {f : Nat → Nat} {n k : Nat} (hk : k < n) (h : f k ≠ 0) : ((List.range n).map f).sum ≠ 0 := by
  rw [Ne, natSum_zero]
  intro h0
  exact h (h0 _ (List.mem_map_of_mem (List.mem_range.mpr hk)))

theorem rangeSum_inv {f : Nat → Nat} {n : Nat} (h : ((List.range n).map f).sum ≠ 0) : ∃ k < n, f k ≠ 0 := by
  by_contra h0
  push Not at h0
  apply h
  rw [natSum_zero]
  intro x hx
  obtain ⟨k, hk, rfl⟩ := List.mem_map.mp hx
  exact h0 k (List.mem_range.mp hk)

theorem argwhere_mem {n : Nat} {f : Nat → Nat} {k : Nat} : k ∈ argwhere n f ↔ k < n ∧ f k ≠ 0 := by
  simp [argwhere]

theorem argwhere_sorted (n : Nat) (f : Nat → Nat) : (argwhere n f).Pairwise (· < ·) :=
  List.Pairwise.filter _ List.pairwise_lt_range

theorem sorted_bounds {x : Nat} {xs : List Nat} (h : (x :: xs).Pairwise (· < ·)) {k : Nat} (hk : k ∈ x :: xs) :
    x ≤ k ∧ k ≤ (x :: xs).getLast (by simp) := by
  constructor
  · rcases List.mem_cons.mp hk with rfl | hk
    · exact le_rfl
    · exact ((List.pairwise_cons.mp h).1 k hk).le
  · have hd := List.dropLast_append_getLast (l := x :: xs) (by simp)
    rw [← hd] at hk
    rcases List.mem_append.mp hk with hk | hk
    · rw [← hd] at h
      exact ((List.pairwise_append.mp h).2.2 k hk _ (by simp)).le
    · simp at hk
      exact hk.le

/-- The pixel is not the same in both images. -/
def Changed (im prev : Img) (i j : Nat) : Prop := i < im.h ∧ j < im.w ∧ im.px i j ≠ prev.px i j

/-- The box of a change, by the changed pixels alone. -/
theorem changeBox_spec (im prev : Img) (hok : im.Ok) (hok' : prev.Ok) (hs : im.h = prev.h ∧ im.w = prev.w ∧ im.ch = prev.ch) :
    ((∀ i j, ¬ Changed im prev i j) ∧ changeBox im prev = (0, 2, 0, 2)) ∨
    ∃ x0 x1 y0 y1, changeBox im prev = (x0, x1 + 1, y0, y1 + 1) ∧ x1 < im.w ∧ y1 < im.h ∧
      (∃ i, Changed im prev i x0) ∧ (∃ i, Changed im prev i x1) ∧ (∃ j, Changed im prev y0 j) ∧ (∃ j, Changed im prev y1 j) ∧
      ∀ i j, Changed im prev i j → x0 ≤ j ∧ j ≤ x1 ∧ y0 ≤ i ∧ i ≤ y1 := by
  have hd : ∀ i j, i < im.h → j < im.w → (pixelDiff (im.px i j) (prev.px i j) ≠ 0 ↔ Changed im prev i j) := by
    intro i j hi hj
    rw [Ne, pixelDiff_zero (by rw [hok i j hi hj, hok' i j (by omega) (by omega), hs.2.2])]
    exact ⟨fun h => ⟨hi, hj, h⟩, fun h => h.2.2⟩
  have hcol : ∀ j, j ∈ argwhere im.w (colDiff im prev) ↔ ∃ i, Changed im prev i j := by
    intro j
    rw [argwhere_mem]
    constructor
    · rintro ⟨hj, h⟩
      obtain ⟨i, hi, h⟩ := rangeSum_inv h
      exact ⟨i, (hd i j hi hj).mp h⟩
    · rintro ⟨i, h⟩
      exact ⟨h.2.1, rangeSum_pos (f := fun i => pixelDiff (im.px i j) (prev.px i j)) h.1 ((hd i j h.1 h.2.1).mpr h)⟩
  have hrow : ∀ i, i ∈ argwhere im.h (rowDiff im prev) ↔ ∃ j, Changed im prev i j := by
    intro i
    rw [argwhere_mem]
    constructor
    · rintro ⟨hi, h⟩
      obtain ⟨j, hj, h⟩ := rangeSum_inv h
      exact ⟨j, (hd i j hi hj).mp h⟩
    · rintro ⟨j, h⟩
      exact ⟨h.1, rangeSum_pos (f := fun j => pixelDiff (im.px i j) (prev.px i j)) h.2.1 ((hd i j h.1 h.2.1).mpr h)⟩
  have s1 := argwhere_sorted im.w (colDiff im prev)
  have s2 := argwhere_sorted im.h (rowDiff im prev)
  unfold changeBox
  cases hX : argwhere im.w (colDiff im prev) with
  | nil =>
    left
    refine ⟨fun i j h => ?_, rfl⟩
    have := (hcol j).mpr ⟨i, h⟩
    rw [hX] at this
    cases this
  | cons x xs =>
    cases hY : argwhere im.h (rowDiff im prev) with
    | nil =>
      left
      refine ⟨fun i j h => ?_, rfl⟩
      have := (hrow i).mpr ⟨j, h⟩
      rw [hY] at this
      cases this
    | cons y ys =>
      right
      rw [hX] at s1 hcol
      rw [hY] at s2 hrow
      have l1 := (hcol _).mp (List.getLast_mem (l := x :: xs) (by simp))
      have l2 := (hrow _).mp (List.getLast_mem (l := y :: ys) (by simp))
      refine ⟨x, (x :: xs).getLast (by simp), y, (y :: ys).getLast (by simp), rfl, l1.choose_spec.2.1, l2.choose_spec.1,
        (hcol x).mp (by simp), l1, (hrow y).mp (by simp), l2, ?_⟩
      intro i j h
      obtain ⟨a, b⟩ := sorted_bounds s1 ((hcol j).mpr ⟨i, h⟩)
      obtain ⟨c, d⟩ := sorted_bounds s2 ((hrow i).mpr ⟨j, h⟩)
      exact ⟨a, b, c, d⟩

theorem after_left (background : List UInt8) (dispose : Nat) (hd : dispose ≠ 2 ∧ dispose ≠ 3) (q : Img × (Nat × Nat)) (c : Canvas (List UInt8)) :
    (drawnAt dispose q).after background c = (drawnAt dispose q).on c := by
  unfold Drawn.after
  rw [if_neg (show ¬ (drawnAt dispose q).dispose = 2 from hd.1), if_neg (show ¬ (drawnAt dispose q).dispose = 3 from hd.2)]

theorem subRectLoop_shows (background : List UInt8) (dispose : Nat) (hd : dispose ≠ 2 ∧ dispose ≠ 3) :
    ∀ (rest : List Img) (prev : Img) (c : Canvas (List UInt8)) (l : List (Img × (Nat × Nat))), prev.Ok → (∀ im ∈ rest, im.Ok) →
      Shows c prev → subRectLoop prev rest = .ok l → List.Forall₂ Shows (play background c (l.map (drawnAt dispose))) rest
  | [], prev, c, l, _, _, _, h => by cases h; exact .nil
  | im :: rest, prev, c, l, hp, hr, hc, h => by
    unfold subRectLoop at h
    split at h
    swap
    · cases h
    rename_i hs
    dsimp only at h
    obtain ⟨l', hl', h⟩ := bind_ok.mp h
    cases h
    rw [List.map_cons]
    unfold play
    have hshow : Shows ((drawnAt dispose (cropImg im (changeBox im prev), ((changeBox im prev).1, (changeBox im prev).2.2.1))).on c) im := by
      intro i j hi hj
      unfold Drawn.on drawnAt cropImg
      dsimp only
      split
      · rename_i hin
        rw [Nat.sub_add_cancel hin.1, Nat.sub_add_cancel hin.2.2.1]
      · rename_i hout
        rw [hc i j (by omega) (by omega)]
        by_contra hne
        have hch : Changed im prev i j := ⟨hi, hj, fun h => hne h.symm⟩
        rcases changeBox_spec im prev (hr im (by simp)) hp hs with ⟨h1, -⟩ | ⟨x0, x1, y0, y1, hb, h1, h2, -, -, -, -, h3⟩
        · exact h1 i j hch
        · rw [hb] at hout
          dsimp only at hout
          have := h3 i j hch
          omega
    refine .cons hshow ?_
    rw [after_left _ _ hd]
    exact subRectLoop_shows background dispose hd rest im _ l' (hr im (by simp)) (fun x hx => hr x (by simp [hx])) hshow hl'

/-- **C91** The images cut out, drawn at their places and left there, show the images given, one after the other. -/
theorem C91_shows (background : List UInt8) (screen : Canvas (List UInt8)) (dispose : Nat) (hd : dispose ≠ 2 ∧ dispose ≠ 3)
    (ims : List Img) (hok : ∀ im ∈ ims, im.Ok) (l : List (Img × (Nat × Nat))) (h : getSubRectangles ims = .ok l) :
    List.Forall₂ Shows (play background screen (l.map (drawnAt dispose))) ims := by
  have first : ∀ im : Img, Shows ((drawnAt dispose (im, (0, 0))).on screen) im := by
    intro im i j hi hj
    unfold Drawn.on drawnAt
    dsimp only
    rw [if_pos (by omega)]
    rfl
  match ims, hok, h with
  | [], _, h => cases h; exact .nil
  | [im], _, h => cases h; exact .cons (first im) .nil
  | im :: im2 :: rest, hok, h =>
    obtain ⟨l', hl', h⟩ := bind_ok.mp h
    cases h
    rw [List.map_cons]
    unfold play
    rw [after_left _ _ hd]
    exact .cons (first im) (subRectLoop_shows background dispose hd _ im _ l' (hok im (by simp)) (fun x hx => hok x (by simp [hx])) (first im) hl')

theorem subRectLoop_get : ∀ (rest : List Img) (prev : Img) (l : List (Img × (Nat × Nat))), subRectLoop prev rest = .ok l →
    l.length = rest.length ∧ (∀ im ∈ rest, im.h = prev.h ∧ im.w = prev.w ∧ im.ch = prev.ch) ∧
    ∀ (k : Nat) (im p : Img), rest[k]? = some im → (prev :: rest)[k]? = some p →
      l[k]? = some (cropImg im (changeBox im p), ((changeBox im p).1, (changeBox im p).2.2.1))
  | [], prev, l, h => by cases h; simp
  | im :: rest, prev, l, h => by
    unfold subRectLoop at h
    split at h
    swap
    · cases h
    rename_i hs
    dsimp only at h
    obtain ⟨l', hl', h⟩ := bind_ok.mp h
    cases h
    obtain ⟨h1, h2, h3⟩ := subRectLoop_get rest im l' hl'
    refine ⟨by simp [h1], ?_, ?_⟩
    · intro x hx
      rcases List.mem_cons.mp hx with rfl | hx
      · exact hs
      · obtain ⟨a, b, c⟩ := h2 x hx
        exact ⟨a.trans hs.1, b.trans hs.2.1, c.trans hs.2.2⟩
    · intro k x p hx hp
      cases k with
      | zero => simp at hx hp; subst hx hp; rfl
      | succ k => exact h3 k x p (by simpa using hx) (by simpa using hp)

theorem subRectLoop_total : ∀ (rest : List Img) (prev : Img), (∀ im ∈ rest, im.h = prev.h ∧ im.w = prev.w ∧ im.ch = prev.ch) →
    ∃ l, subRectLoop prev rest = .ok l
  | [], prev, _ => ⟨[], rfl⟩
  | im :: rest, prev, h => by
    have hs := h im (by simp)
    obtain ⟨l, hl⟩ := subRectLoop_total rest im fun x hx => by
      obtain ⟨a, b, c⟩ := h x (by simp [hx])
      exact ⟨a.trans hs.1.symm, b.trans hs.2.1.symm, c.trans hs.2.2.symm⟩
    unfold subRectLoop
    rw [if_pos hs]
    dsimp only
    rw [hl]
    exact ⟨_, rfl⟩

/-- **C91** Cutting out succeeds exactly if all images have the same shape. -/
theorem C91_accepted (im : Img) (rest : List Img) :
    (∃ l, getSubRectangles (im :: rest) = .ok l) ↔ ∀ x ∈ rest, x.h = im.h ∧ x.w = im.w ∧ x.ch = im.ch := by
  cases rest with
  | nil => simp [getSubRectangles]
  | cons im2 rest =>
    constructor
    · rintro ⟨l, h⟩
      obtain ⟨l', hl', -⟩ := bind_ok.mp h
      exact (subRectLoop_get _ _ _ hl').2.1
    · intro h
      obtain ⟨l, hl⟩ := subRectLoop_total (im2 :: rest) im h
      exact ⟨(im, (0, 0)) :: l, bind_ok.mpr ⟨l, hl, rfl⟩⟩

/-- **C91** Each image after the first is cut to the smallest rectangle that holds all pixels changed: it lies within every
such rectangle. Without a change, to at most two pixels by two in the corner. What is cut out is taken from the image. -/
theorem C91_smallest (ims : List Img) (hok : ∀ im ∈ ims, im.Ok) (l : List (Img × (Nat × Nat))) (h : getSubRectangles ims = .ok l) :
    l.length = ims.length ∧ ∀ (k : Nat) (im prev : Img), ims[k + 1]? = some im → ims[k]? = some prev → ∃ q, l[k + 1]? = some q ∧
      (∀ i j, q.1.px i j = im.px (i + q.2.2) (j + q.2.1)) ∧ q.1.ch = im.ch ∧
      (∀ i j, Changed im prev i j → q.2.1 ≤ j ∧ j < q.2.1 + q.1.w ∧ q.2.2 ≤ i ∧ i < q.2.2 + q.1.h) ∧
      ((∃ i j, Changed im prev i j) → 0 < q.1.w ∧ 0 < q.1.h ∧ ∀ a b c d, (∀ i j, Changed im prev i j → a ≤ j ∧ j < b ∧ c ≤ i ∧ i < d) →
        a ≤ q.2.1 ∧ q.2.1 + q.1.w ≤ b ∧ c ≤ q.2.2 ∧ q.2.2 + q.1.h ≤ d) ∧
      ((∀ i j, ¬ Changed im prev i j) → q.2 = (0, 0) ∧ q.1.w ≤ 2 ∧ q.1.h ≤ 2) := by
  match ims, hok, h with
  | [], _, h => cases h; simp
  | [im], _, h => cases h; simp
  | im0 :: im2 :: rest, hok, h =>
    obtain ⟨l', hl', h⟩ := bind_ok.mp h
    cases h
    obtain ⟨h1, h2, h3⟩ := subRectLoop_get _ _ _ hl'
    refine ⟨by simp [h1], ?_⟩
    intro k im prev him hprev
    rw [List.getElem?_cons_succ] at him
    have hmem := List.mem_of_getElem? him
    have hmem' := List.mem_of_getElem? hprev
    have hs1 := h2 im hmem
    have hs2 : prev.h = im0.h ∧ prev.w = im0.w ∧ prev.ch = im0.ch := by
      rcases List.mem_cons.mp hmem' with rfl | h
      · exact ⟨rfl, rfl, rfl⟩
      · exact h2 prev h
    have hs : im.h = prev.h ∧ im.w = prev.w ∧ im.ch = prev.ch := ⟨hs1.1.trans hs2.1.symm, hs1.2.1.trans hs2.2.1.symm, hs1.2.2.trans hs2.2.2.symm⟩
    refine ⟨_, by rw [List.getElem?_cons_succ]; exact h3 k im prev him hprev, fun _ _ => rfl, rfl, ?_⟩
    unfold cropImg
    dsimp only
    rcases changeBox_spec im prev (hok im (List.mem_cons_of_mem _ hmem)) (hok prev hmem') hs with ⟨g1, g2⟩ | ⟨x0, x1, y0, y1, hb, g1, g2, g3, g4, g5, g6, g7⟩
    · rw [g2]
      refine ⟨fun i j h => absurd h (g1 i j), ?_, fun _ => ⟨rfl, by dsimp only; omega, by dsimp only; omega⟩⟩
      rintro ⟨i, j, h⟩
      exact absurd h (g1 i j)
    · rw [hb]
      dsimp only
      obtain ⟨i3, g3⟩ := g3
      obtain ⟨i4, g4⟩ := g4
      obtain ⟨j5, g5⟩ := g5
      obtain ⟨j6, g6⟩ := g6
      have e3 := g7 _ _ g3
      have e5 := g7 _ _ g5
      refine ⟨?_, ?_, ?_⟩
      · intro i j h
        have := g7 i j h
        omega
      · intro _
        refine ⟨by omega, by omega, ?_⟩
        intro a b c d hall
        have f3 := hall _ _ g3
        have f4 := hall _ _ g4
        have f5 := hall _ _ g5
        have f6 := hall _ _ g6
        omega
      · intro hno
        exact absurd g3 (hno _ _)

/-! ## C92 The file -/

/-- What Pillow gives for an image, as the format asks for it: 256 colours; a descriptor at the corner, without own colours, and
the size of codes; the data in blocks. -/
structure PilOk (im : PilImg) (data : Bytes) : Prop where
  palette : im.palette.length = 768
  imdes : ∃ w0 w1 h0 h1, im.imdes = [0x2C, 0, 0, 0, 0, w0, w1, h0, h1, 0, 8] ∧ u16 w0 w1 = im.w ∧ u16 h0 h1 = im.h
  packed : ∃ chunks : List Bytes, (∀ c ∈ chunks, 0 < c.length ∧ c.length < 256) ∧ im.data.flatten = blocksOf chunks ∧ data = chunks.flatten

theorem intToBin_ok {i : Int} {b : Bytes} : intToBin i = .ok b ↔ 0 ≤ i ∧ i < 65536 ∧ ∃ lo hi, b = [lo, hi] ∧ (u16 lo hi : Int) = i := by
  unfold intToBin
  constructor
  · intro h
    split at h
    swap
    · cases h
    rename_i hi
    cases h
    refine ⟨hi.1, hi.2, _, _, rfl, ?_⟩
    unfold u16
    rw [UInt8.toNat_ofNat', UInt8.toNat_ofNat']
    omega
  · rintro ⟨h0, h1, lo, hi, rfl, h⟩
    rw [if_pos ⟨h0, h1⟩]
    have l1 := lo.toNat_lt
    have l2 := hi.toNat_lt
    unfold u16 at h
    have e1 : i.toNat % 256 = lo.toNat := by omega
    have e2 : i.toNat / 256 = hi.toNat := by omega
    rw [e1, e2, UInt8.ofNat_toNat, UInt8.ofNat_toNat]

theorem subBlocks_of : ∀ (chunks : List Bytes) (f : Nat) (rest : Bytes), (∀ c ∈ chunks, 0 < c.length ∧ c.length < 256) →
    (blocksOf chunks ++ rest).length < f → Gif.subBlocks f (blocksOf chunks ++ rest) = some (chunks.flatten, rest)
  | [], f, rest, _, hf => by
    cases f with
    | zero => omega
    | succ f => rfl
  | c :: chunks, f, rest, hc, hf => by
    cases f with
    | zero => omega
    | succ f =>
      obtain ⟨h0, h1⟩ := hc c (by simp)
      have hsplit : blocksOf (c :: chunks) ++ rest = UInt8.ofNat c.length :: (c ++ (blocksOf chunks ++ rest)) := by
        unfold blocksOf
        simp
      have hn : (UInt8.ofNat c.length).toNat = c.length := by
        rw [UInt8.toNat_ofNat']; omega
      have hne : UInt8.ofNat c.length ≠ 0 := by
        intro h
        rw [h] at hn
        have : (0 : UInt8).toNat = 0 := rfl
        omega
      rw [hsplit] at hf ⊢
      unfold Gif.subBlocks
      rw [if_neg hne, hn, if_neg (by simp), List.drop_left, List.take_left]
      rw [subBlocks_of chunks f rest (fun x hx => hc x (by simp [hx])) (by simp at hf ⊢; omega)]
      rfl

/-- The table is in common use, and the frame is to be cleared away: then Pillow's descriptor is written. -/
def Shared (globalPalette : Bytes) (im : PilImg) (dispose : Int) : Prop := im.palette = globalPalette ∧ dispose = 2

instance (g : Bytes) (im : PilImg) (d : Int) : Decidable (Shared g im d) := inferInstanceAs (Decidable (_ ∧ _))

/-- The frame a decoder is to read. -/
def frameSeen (transparent : Bool) (globalPalette : Bytes) (im : PilImg) (data : Bytes) (duration : ℚ) (dispose : Int) (xy : Int × Int) : Gif.Frame :=
  ⟨some ⟨(dispose % 4).toNat, (pyInt (duration * 100)).toNat, if transparent then some 255 else none⟩,
    if Shared globalPalette im dispose then 0 else xy.1.toNat, if Shared globalPalette im dispose then 0 else xy.2.toNat,
    im.w, im.h, im.palette, 8, data⟩

theorem control_seen (dispose : Int) (transparent : Bool) (lo hi : UInt8) :
    Gif.readControl [UInt8.ofNat ((dispose % 4).toNat * 4 + if transparent then 1 else 0), lo, hi, 255] =
      some ⟨(dispose % 4).toNat, u16 lo hi, if transparent then some 255 else none⟩ := by
  unfold Gif.readControl
  have h1 : (dispose % 4).toNat < 4 := by omega
  generalize (dispose % 4).toNat = d at h1 ⊢
  cases transparent
  · have hn : (UInt8.ofNat (d * 4 + 0)).toNat = d * 4 := by rw [UInt8.toNat_ofNat']; omega
    simp only [Bool.false_eq_true, if_false, hn]
    rw [if_neg (by omega), show d * 4 / 4 % 8 = d by omega]
  · have hn : (UInt8.ofNat (d * 4 + 1)).toNat = d * 4 + 1 := by rw [UInt8.toNat_ofNat']; omega
    simp only [if_true, hn]
    rw [if_pos (by omega), show (d * 4 + 1) / 4 % 8 = d by omega]

theorem graphics_bytes {duration : ℚ} {dispose : Int} {tr : Bool} {g : Bytes} (h : graphicsControl duration dispose tr = .ok g) :
    ∃ lo hi, u16 lo hi = (pyInt (duration * 100)).toNat ∧ 0 ≤ pyInt (duration * 100) ∧ pyInt (duration * 100) < 65536 ∧
      g = [0x21, 0xF9, 0x04, UInt8.ofNat ((dispose % 4).toNat * 4 + if tr then 1 else 0), lo, hi, 255, 0] := by
  obtain ⟨d, hd, h⟩ := bind_ok.mp h
  cases h
  obtain ⟨h0, h1, lo, hi, rfl, h2⟩ := intToBin_ok.mp hd
  exact ⟨lo, hi, by omega, h0, h1, rfl⟩

theorem descriptor_bytes {im : PilImg} {xy : Int × Int} {b : Bytes} (h : imageDescriptor im xy = .ok b) :
    ∃ x0 x1 y0 y1 w0 w1 h0 h1, b = [0x2C, x0, x1, y0, y1, w0, w1, h0, h1, 0x87] ∧ (u16 x0 x1 : Int) = xy.1 ∧ (u16 y0 y1 : Int) = xy.2 ∧
      u16 w0 w1 = im.w ∧ u16 h0 h1 = im.h := by
  obtain ⟨x, hx, h⟩ := bind_ok.mp h
  obtain ⟨y, hy, h⟩ := bind_ok.mp h
  obtain ⟨w, hw, h⟩ := bind_ok.mp h
  obtain ⟨hh, hhh, h⟩ := bind_ok.mp h
  cases h
  obtain ⟨-, -, x0, x1, rfl, e1⟩ := intToBin_ok.mp hx
  obtain ⟨-, -, y0, y1, rfl, e2⟩ := intToBin_ok.mp hy
  obtain ⟨-, -, w0, w1, rfl, e3⟩ := intToBin_ok.mp hw
  obtain ⟨-, -, h0, h1, rfl, e4⟩ := intToBin_ok.mp hhh
  exact ⟨x0, x1, y0, y1, w0, w1, h0, h1, rfl, e1, e2, by omega, by omega⟩

theorem subBlocks_one4 (a b c d : UInt8) (rest : Bytes) :
    Gif.subBlocks ((4 :: a :: b :: c :: d :: 0 :: rest : Bytes).length + 1) (4 :: a :: b :: c :: d :: 0 :: rest) = some ([a, b, c, d], rest) :=
  subBlocks_of [[a, b, c, d]] _ rest (by simp) (by simp [blocksOf])

/-- A control extension is read. -/
theorem readBlocks_control (g : Bytes) (f : Nat) (c : Option Gif.Control) (loops : Option Nat) (a lo hi i : UInt8) (tail : Bytes) (ctl : Gif.Control)
    (h : Gif.readControl [a, lo, hi, i] = some ctl) :
    Gif.readBlocks g (f + 1) c loops ([0x21, 0xF9, 0x04, a, lo, hi, i, 0] ++ tail) = Gif.readBlocks g f (some ctl) loops tail := by
  simp only [List.cons_append, List.nil_append]
  conv_lhs => unfold Gif.readBlocks
  rw [if_neg (by decide), if_neg (by decide), if_pos rfl]
  dsimp only
  rw [subBlocks_one4]
  dsimp only
  rw [if_neg (by decide), if_pos rfl, h]

/-- An image is read. -/
theorem readBlocks_image (g : Bytes) (f : Nat) (c : Option Gif.Control) (loops : Option Nat) (body rest : Bytes) (fr : Gif.Frame)
    (h : Gif.readImage (body.length + 1) g c body = some (fr, rest)) (r : Option Nat × List Gif.Frame)
    (hr : Gif.readBlocks g f none loops rest = some r) :
    Gif.readBlocks g (f + 1) c loops (0x2C :: body) = some (r.1, fr :: r.2) := by
  unfold Gif.readBlocks
  rw [if_neg (by decide), if_pos rfl, h]
  dsimp only
  rw [hr]

/-- An image after its separator, with its own colours. -/
theorem readImage_own (fuel : Nat) (g : Bytes) (c : Option Gif.Control) (x0 x1 y0 y1 w0 w1 h0 h1 : UInt8) (palette : Bytes) (hp : palette.length = 768)
    (chunks : List Bytes) (hch : ∀ c ∈ chunks, 0 < c.length ∧ c.length < 256) (rest : Bytes) (hf : (blocksOf chunks ++ rest).length < fuel) :
    Gif.readImage fuel g c (x0 :: x1 :: y0 :: y1 :: w0 :: w1 :: h0 :: h1 :: 0x87 :: (palette ++ 8 :: (blocksOf chunks ++ rest))) =
      some (⟨c, u16 x0 x1, u16 y0 y1, u16 w0 w1, u16 h0 h1, palette, 8, chunks.flatten⟩, rest) := by
  unfold Gif.readImage
  dsimp only
  have ht : Gif.tableLength 0x87 = palette.length := by rw [hp]; rfl
  unfold Gif.takeN
  rw [ht, if_neg (by simp), List.take_left, List.drop_left]
  dsimp only
  rw [subBlocks_of chunks fuel rest hch hf]
  rfl

/-- An image after its separator, with the colours of the file. -/
theorem readImage_shared (fuel : Nat) (g : Bytes) (c : Option Gif.Control) (x0 x1 y0 y1 w0 w1 h0 h1 : UInt8)
    (chunks : List Bytes) (hch : ∀ c ∈ chunks, 0 < c.length ∧ c.length < 256) (rest : Bytes) (hf : (blocksOf chunks ++ rest).length < fuel) :
    Gif.readImage fuel g c (x0 :: x1 :: y0 :: y1 :: w0 :: w1 :: h0 :: h1 :: 0 :: 8 :: (blocksOf chunks ++ rest)) =
      some (⟨c, u16 x0 x1, u16 y0 y1, u16 w0 w1, u16 h0 h1, g, 8, chunks.flatten⟩, rest) := by
  unfold Gif.readImage
  dsimp only
  have ht : Gif.tableLength 0 = 0 := rfl
  unfold Gif.takeN
  rw [ht, if_neg (by simp), List.take_zero, List.drop_zero]
  dsimp only
  rw [subBlocks_of chunks fuel rest hch hf]
  rfl

/-- A frame as written is read again, whatever follows. -/
theorem frame_seen {tr : Bool} {g : Bytes} {im : PilImg} {data : Bytes} {duration : ℚ} {dispose : Int} {xy : Int × Int} {b : Bytes}
    (hok : PilOk im data) (h : frameBytes tr g im duration dispose xy = .ok b) (rest : Bytes) (loops : Option Nat) (f : Nat) (c : Option Gif.Control)
    (r : Option Nat × List Gif.Frame) (hr : Gif.readBlocks g f none loops rest = some r) :
    2 ≤ b.length ∧ Gif.readBlocks g (f + 2) c loops (b ++ rest) = some (r.1, frameSeen tr g im data duration dispose xy :: r.2) := by
  obtain ⟨gc, hgc, h⟩ := bind_ok.mp h
  obtain ⟨lid, hlid, h⟩ := bind_ok.mp h
  cases h
  obtain ⟨lo, hi, e0, -, -, rfl⟩ := graphics_bytes hgc
  obtain ⟨x0, x1, y0, y1, w0, w1, h0, h1, rfl, e1, e2, e3, e4⟩ := descriptor_bytes hlid
  obtain ⟨chunks, hch, hfl, rfl⟩ := hok.packed
  obtain ⟨v0, v1, k0, k1, hd, f3, f4⟩ := hok.imdes
  refine ⟨by split <;> simp, ?_⟩
  have hctl := control_seen dispose tr lo hi
  rw [e0] at hctl
  rw [hfl]
  by_cases hs : Shared g im dispose
  · have hs' : ¬ (im.palette ≠ g ∨ dispose ≠ 2) := by
      rintro (h | h)
      · exact h hs.1
      · exact h hs.2
    rw [if_neg hs', hd, List.append_assoc, List.append_assoc, readBlocks_control g (f + 1) c loops _ _ _ _ _ _ hctl]
    unfold frameSeen
    rw [if_pos hs, if_pos hs, ← f3, ← f4, hs.1]
    exact readBlocks_image g f _ loops _ rest _
      (readImage_shared _ g _ 0 0 0 0 v0 v1 k0 k1 chunks hch rest (by simp; omega)) r hr
  · have hs' : im.palette ≠ g ∨ dispose ≠ 2 := by
      by_contra h
      push Not at h
      exact hs h
    rw [if_pos hs', List.append_assoc, List.append_assoc, List.append_assoc, List.append_assoc, readBlocks_control g (f + 1) c loops _ _ _ _ _ _ hctl]
    unfold frameSeen
    rw [if_neg hs, if_neg hs, ← e1, ← e2, ← e3, ← e4, Int.toNat_natCast, Int.toNat_natCast]
    exact readBlocks_image g f _ loops _ rest _
      (readImage_own _ g _ x0 x1 y0 y1 w0 w1 h0 h1 im.palette hok.palette chunks hch rest (by simp; omega)) r hr

/-- All frames as written are read again. -/
theorem frames_seen (tr : Bool) (g : Bytes) (durations : List ℚ) (disposes : List Int) (xys : List (Int × Int)) (payload : PilImg → Bytes)
    (loops : Option Nat) : ∀ (ims : List PilImg) (n : Nat), (∀ im ∈ ims, PilOk im (payload im)) →
    (writeFrames tr g durations disposes xys n ims).2 = .ok () → ∃ frames : List Gif.Frame, frames.length = ims.length ∧
      (∀ f c, (writeFrames tr g durations disposes xys n ims).1.length + 1 < f →
        Gif.readBlocks g f c loops ((writeFrames tr g durations disposes xys n ims).1 ++ [0x3B]) = some (loops, frames)) ∧
      ∀ (k : Nat) (im : PilImg), ims[k]? = some im → ∃ d p xy, durations[n + k]? = some d ∧ disposes[n + k]? = some p ∧ xys[n + k]? = some xy ∧
        frames[k]? = some (frameSeen tr g im (payload im) d p xy)
  | [], n, _, _ => by
    refine ⟨[], rfl, ?_, by simp⟩
    intro f c hf
    cases f with
    | zero => omega
    | succ f => rfl
  | im :: rest, n, hok, h => by
    unfold writeFrames at h ⊢
    cases ha : frameArgs durations disposes xys n with
    | error e => rw [ha] at h; cases h
    | ok a =>
      rw [ha] at h
      cases hb : frameBytes tr g im a.1 a.2.1 a.2.2 with
      | error e =>
        have : ((Except.ok a : Py _) >>= fun a => frameBytes tr g im a.1 a.2.1 a.2.2) = .error e := hb
        rw [this] at h; cases h
      | ok b =>
        have hbb : ((Except.ok a : Py _) >>= fun a => frameBytes tr g im a.1 a.2.1 a.2.2) = .ok b := hb
        rw [hbb] at h ⊢
        dsimp only at h ⊢
        obtain ⟨frames, hl, hread, hk⟩ := frames_seen tr g durations disposes xys payload loops rest (n + 1) (fun x hx => hok x (by simp [hx])) h
        refine ⟨frameSeen tr g im (payload im) a.1 a.2.1 a.2.2 :: frames, by simp [hl], ?_, ?_⟩
        · intro f c hf
          rw [List.length_append] at hf
          have hlen := (frame_seen (hok im (by simp)) hb [0x3B] loops 1 none (loops, []) rfl).1
          obtain ⟨f, rfl⟩ : ∃ f', f = f' + 2 := ⟨f - 2, by omega⟩
          rw [List.append_assoc]
          exact (frame_seen (hok im (by simp)) hb _ loops f c (loops, frames) (hread f none (by omega))).2
        · intro k im' him'
          cases k with
          | zero =>
            simp at him'
            subst him'
            unfold frameArgs at ha
            split at ha
            · rename_i d p xy h1 h2 h3
              cases ha
              exact ⟨d, p, xy, h1, h2, h3, rfl⟩
            · cases ha
          | succ k =>
            obtain ⟨d, p, xy, h1, h2, h3, h4⟩ := hk k im' (by simpa using him')
            refine ⟨d, p, xy, ?_, ?_, ?_, by simpa using h4⟩ <;>
              rw [show n + (k + 1) = n + 1 + k by omega] <;> assumption

/-- The number of repetitions a decoder is to find. -/
def loopsSeen (loops : Int) : Option Nat := if loops = 1 then none else if loops = 0 then some 65535 else some loops.toNat

theorem appExt_seen {loops : Int} {ext : Bytes} (h : appExt loops = .ok ext) (g rest : Bytes) (f : Nat) (r : Option Nat × List Gif.Frame)
    (hr : ∀ f', rest.length < f' → Gif.readBlocks g f' none (loopsSeen loops) rest = some r) (hf : (ext ++ rest).length < f) :
    Gif.readBlocks g f none none (ext ++ rest) = some r := by
  have key : ∀ n : Int, intToBin n = intToBin n → loopsSeen loops = some n.toNat →
      (do let n ← intToBin n
          pure ([0x21, 0xFF, 0x0B] ++ [0x4E, 0x45, 0x54, 0x53, 0x43, 0x41, 0x50, 0x45, 0x32, 0x2E, 0x30] ++ [0x03, 0x01] ++ n ++ [0x00]) : Py Bytes) = .ok ext →
      Gif.readBlocks g f none none (ext ++ rest) = some r := by
    intro n _ hn h
    obtain ⟨b, hb, h⟩ := bind_ok.mp h
    cases h
    obtain ⟨-, -, lo, hi, rfl, e⟩ := intToBin_ok.mp hb
    obtain ⟨f, rfl⟩ : ∃ f', f = f' + 1 := ⟨f - 1, by simp at hf; omega⟩
    simp only [List.cons_append, List.nil_append]
    unfold Gif.readBlocks
    rw [if_neg (by decide), if_neg (by decide), if_pos rfl]
    dsimp only
    have hsb := subBlocks_of [[0x4E, 0x45, 0x54, 0x53, 0x43, 0x41, 0x50, 0x45, 0x32, 0x2E, 0x30], [0x01, lo, hi]]
      ((0x0B :: 0x4E :: 0x45 :: 0x54 :: 0x53 :: 0x43 :: 0x41 :: 0x50 :: 0x45 :: 0x32 :: 0x2E :: 0x30 :: 0x03 :: 0x01 :: lo :: hi :: 0 :: rest : Bytes).length + 1) rest
      (by simp) (by simp [blocksOf])
    have hsb' : Gif.subBlocks ((0x0B :: 0x4E :: 0x45 :: 0x54 :: 0x53 :: 0x43 :: 0x41 :: 0x50 :: 0x45 :: 0x32 :: 0x2E :: 0x30 :: 0x03 :: 0x01 :: lo :: hi :: 0 :: rest : Bytes).length + 1)
      (0x0B :: 0x4E :: 0x45 :: 0x54 :: 0x53 :: 0x43 :: 0x41 :: 0x50 :: 0x45 :: 0x32 :: 0x2E :: 0x30 :: 0x03 :: 0x01 :: lo :: hi :: 0 :: rest) =
      some ([0x4E, 0x45, 0x54, 0x53, 0x43, 0x41, 0x50, 0x45, 0x32, 0x2E, 0x30, 0x01, lo, hi], rest) := hsb
    rw [hsb']
    dsimp only
    rw [if_pos rfl]
    have hlc : Gif.loopCount [0x4E, 0x45, 0x54, 0x53, 0x43, 0x41, 0x50, 0x45, 0x32, 0x2E, 0x30, 0x01, lo, hi] = some (u16 lo hi) := rfl
    rw [hlc]
    dsimp only
    have := hr f (by simp at hf; omega)
    rw [hn, ← e, Int.toNat_natCast] at this
    exact this
  unfold appExt at h
  dsimp only at h
  by_cases h0 : loops = 0
  · rw [if_pos h0, if_neg (by decide)] at h
    refine key 65535 rfl ?_ h
    unfold loopsSeen
    rw [if_neg (by omega), if_pos h0]
    rfl
  · rw [if_neg h0] at h
    by_cases h1 : loops = 1
    · rw [if_pos h1] at h
      cases h
      have := hr f (by simpa using hf)
      unfold loopsSeen at this
      rw [if_pos h1] at this
      exact this
    · rw [if_neg h1] at h
      refine key loops rfl ?_ h
      unfold loopsSeen
      rw [if_neg h1, if_neg h0]

theorem header_seen (w0 w1 h0 h1 : UInt8) (g : Bytes) (hgl : g.length = 768) (rest : Bytes) (r : Option Nat × List Gif.Frame)
    (hr : Gif.readBlocks g (rest.length + 1) none none rest = some r) :
    Gif.readFile (0x47 :: 0x49 :: 0x46 :: 0x38 :: 0x39 :: 0x61 :: w0 :: w1 :: h0 :: h1 :: 0x87 :: 0 :: 0 :: (g ++ rest)) =
      some ⟨u16 w0 w1, u16 h0 h1, r.1, r.2⟩ := by
  unfold Gif.readFile
  rw [if_pos (by rfl)]
  rw [show List.drop 6 (0x47 :: 0x49 :: 0x46 :: 0x38 :: 0x39 :: 0x61 :: w0 :: w1 :: h0 :: h1 :: 0x87 :: 0 :: 0 :: (g ++ rest) : Bytes) =
    w0 :: w1 :: h0 :: h1 :: 0x87 :: 0 :: 0 :: (g ++ rest) from rfl]
  dsimp only
  have ht : Gif.tableLength 0x87 = g.length := by rw [hgl]; rfl
  unfold Gif.takeN
  rw [ht, if_neg (by simp), List.take_left, List.drop_left]
  dsimp only
  rw [hr]

theorem header_bytes {im : PilImg} {hd : Bytes} (h : headerAnim im = .ok hd) :
    ∃ w0 w1 h0 h1, hd = [0x47, 0x49, 0x46, 0x38, 0x39, 0x61, w0, w1, h0, h1, 0x87, 0, 0] ∧ u16 w0 w1 = im.w ∧ u16 h0 h1 = im.h := by
  obtain ⟨w, hw, h⟩ := bind_ok.mp h
  obtain ⟨hh, hhh, h⟩ := bind_ok.mp h
  cases h
  obtain ⟨-, -, w0, w1, rfl, e1⟩ := intToBin_ok.mp hw
  obtain ⟨-, -, h0, h1, rfl, e2⟩ := intToBin_ok.mp hhh
  exact ⟨w0, w1, h0, h1, rfl, by omega, by omega⟩

theorem mostUsed_mem {ps : List Bytes} {g : Bytes} (h : mostUsed ps = .ok g) : g ∈ ps := by
  unfold mostUsed at h
  split at h
  · cases h
  · split at h
    · rename_i hf
      cases h
      exact List.mem_of_find?_eq_some hf
    · cases h

theorem gifBytes_ok {g : Bytes} {hd ext : Py Bytes} {fr : Bytes × Py Unit} (h : (gifBytes g hd ext fr).2 = .ok ()) :
    ∃ hd' ext', hd = .ok hd' ∧ ext = .ok ext' ∧ fr.2 = .ok () ∧ (gifBytes g hd ext fr).1 = hd' ++ g ++ ext' ++ fr.1 ++ [0x3B] := by
  unfold gifBytes at h ⊢
  split at h
  · cases h
  · cases h
  · exact ⟨_, _, rfl, rfl, rfl, rfl⟩
  · cases h

theorem written_ok {tr : Bool} {ims : List PilImg} {durations : List ℚ} {loops : Int} {xys : List (Int × Int)} {disposes : List Int}
    (h : (writeGifToFile tr ims durations loops xys disposes).2 = .ok ()) :
    ∃ g im0 hd ext, mostUsed (ims.map (·.palette)) = .ok g ∧ ims.head? = some im0 ∧ headerAnim im0 = .ok hd ∧ appExt loops = .ok ext ∧
      (writeFrames tr g durations disposes xys 0 ims).2 = .ok () ∧
      (writeGifToFile tr ims durations loops xys disposes).1 = hd ++ g ++ ext ++ (writeFrames tr g durations disposes xys 0 ims).1 ++ [0x3B] := by
  unfold writeGifToFile at h ⊢
  split at h
  · cases h
  · cases h
  · rename_i g im rest hg
    obtain ⟨hd, ext, h1, h2, h3, h4⟩ := gifBytes_ok h
    rw [hg]
    exact ⟨g, im, hd, ext, rfl, rfl, h1, h2, h3, h4⟩

/-- **C92** What is written is read again by a decoder of the format: the screen has the size of the first image, and there is a
frame for each image, in order, with its size, colours and data, its time in hundredths of seconds, its disposal and its place
(the corner, if its colours are those used most and it is to be cleared away). -/
theorem C92_layout (tr : Bool) (ims : List PilImg) (durations : List ℚ) (loops : Int) (xys : List (Int × Int)) (disposes : List Int)
    (payload : PilImg → Bytes) (hok : ∀ im ∈ ims, PilOk im (payload im)) (h : (writeGifToFile tr ims durations loops xys disposes).2 = .ok ()) :
    ∃ g im0 frames, ims.head? = some im0 ∧ g ∈ ims.map (·.palette) ∧
      Gif.readFile (writeGifToFile tr ims durations loops xys disposes).1 = some ⟨im0.w, im0.h, loopsSeen loops, frames⟩ ∧
      frames.length = ims.length ∧ ∀ (k : Nat) (im : PilImg), ims[k]? = some im → ∃ d p xy,
        durations[k]? = some d ∧ disposes[k]? = some p ∧ xys[k]? = some xy ∧ frames[k]? = some (frameSeen tr g im (payload im) d p xy) := by
  obtain ⟨g, im0, hd, ext, hg, h0, hh, he, hw, hbytes⟩ := written_ok h
  have hgm := mostUsed_mem hg
  have hgl : g.length = 768 := by
    obtain ⟨x, hx, rfl⟩ := List.mem_map.mp hgm
    exact (hok x hx).palette
  obtain ⟨frames, hl, hread, hk⟩ := frames_seen tr g durations disposes xys payload (loopsSeen loops) ims 0 hok hw
  refine ⟨g, im0, frames, h0, hgm, ?_, hl, ?_⟩
  · obtain ⟨w0, w1, h0, h1, rfl, e1, e2⟩ := header_bytes hh
    rw [hbytes]
    generalize (writeFrames tr g durations disposes xys 0 ims).1 = b at hread
    have hrb := appExt_seen he g (b ++ [0x3B]) ((ext ++ (b ++ [0x3B])).length + 1) (loopsSeen loops, frames)
      (fun f' hf' => hread f' none (by simpa using hf')) (by omega)
    have := header_seen w0 w1 h0 h1 g hgl _ _ hrb
    rw [e1, e2] at this
    simpa only [List.cons_append, List.nil_append, List.append_assoc] using this
  · intro k im' hk'
    obtain ⟨d, p, xy, a1, a2, a3, a4⟩ := hk k im' hk'
    rw [Nat.zero_add] at a1 a2 a3
    exact ⟨d, p, xy, a1, a2, a3, a4⟩

/-! ### What succeeds -/

theorem frameBytes_accepted (tr : Bool) (g : Bytes) (im : PilImg) (d : ℚ) (p : Int) (xy : Int × Int) :
    (∃ b, frameBytes tr g im d p xy = .ok b) ↔ (0 ≤ pyInt (d * 100) ∧ pyInt (d * 100) < 65536) ∧ (0 ≤ xy.1 ∧ xy.1 < 65536) ∧
      (0 ≤ xy.2 ∧ xy.2 < 65536) ∧ im.w < 65536 ∧ im.h < 65536 := by
  have key : ∀ i : Int, (∃ b, intToBin i = .ok b) ↔ 0 ≤ i ∧ i < 65536 := by
    intro i
    constructor
    · rintro ⟨b, h⟩
      obtain ⟨h0, h1, -⟩ := intToBin_ok.mp h
      exact ⟨h0, h1⟩
    · intro h
      exact ⟨_, if_pos h⟩
  constructor
  · rintro ⟨b, h⟩
    obtain ⟨gc, hgc, h⟩ := bind_ok.mp h
    obtain ⟨lid, hlid, -⟩ := bind_ok.mp h
    obtain ⟨d', hd', -⟩ := bind_ok.mp hgc
    obtain ⟨x, hx, hlid⟩ := bind_ok.mp hlid
    obtain ⟨y, hy, hlid⟩ := bind_ok.mp hlid
    obtain ⟨w, hw, hlid⟩ := bind_ok.mp hlid
    obtain ⟨h, hh, hlid⟩ := bind_ok.mp hlid
    have a1 := (key _).mp ⟨_, hd'⟩
    have a2 := (key _).mp ⟨_, hx⟩
    have a3 := (key _).mp ⟨_, hy⟩
    have a4 := (key _).mp ⟨_, hw⟩
    have a5 := (key _).mp ⟨_, hh⟩
    exact ⟨a1, a2, a3, by omega, by omega⟩
  · rintro ⟨a1, a2, a3, a4, a5⟩
    obtain ⟨d', hd'⟩ := (key _).mpr a1
    obtain ⟨x, hx⟩ := (key _).mpr a2
    obtain ⟨y, hy⟩ := (key _).mpr a3
    obtain ⟨w, hw⟩ := (key im.w).mpr ⟨by omega, by omega⟩
    obtain ⟨h, hh⟩ := (key im.h).mpr ⟨by omega, by omega⟩
    have e1 := (bind_ok (f := fun d => pure ([0x21, 0xF9, 0x04] ++ [UInt8.ofNat ((p % 4).toNat * 4 + if tr then 1 else 0)] ++ d ++ [255] ++ [0x00]))).mpr ⟨d', hd', rfl⟩
    have e2 : imageDescriptor im xy = .ok ([0x2C] ++ x ++ y ++ w ++ h ++ [0x87]) :=
      bind_ok.mpr ⟨x, hx, bind_ok.mpr ⟨y, hy, bind_ok.mpr ⟨w, hw, bind_ok.mpr ⟨h, hh, rfl⟩⟩⟩⟩
    exact ⟨_, bind_ok.mpr ⟨_, e1, bind_ok.mpr ⟨_, e2, rfl⟩⟩⟩

/-- What a frame may be: there is a time, a disposal and a place for it, and times, places and sizes fit into two bytes. -/
def Fits (durations : List ℚ) (disposes : List Int) (xys : List (Int × Int)) (k : Nat) (im : PilImg) : Prop :=
  ∃ d p xy, durations[k]? = some d ∧ disposes[k]? = some p ∧ xys[k]? = some xy ∧
    (0 ≤ pyInt (d * 100) ∧ pyInt (d * 100) < 65536) ∧ (0 ≤ xy.1 ∧ xy.1 < 65536) ∧ (0 ≤ xy.2 ∧ xy.2 < 65536) ∧ im.w < 65536 ∧ im.h < 65536

theorem frameArgs_ok {durations : List ℚ} {disposes : List Int} {xys : List (Int × Int)} {n : Nat} {a : ℚ × Int × (Int × Int)} :
    frameArgs durations disposes xys n = .ok a ↔ durations[n]? = some a.1 ∧ disposes[n]? = some a.2.1 ∧ xys[n]? = some a.2.2 := by
  unfold frameArgs
  split
  · rename_i d p xy h1 h2 h3
    rw [h1, h2, h3]
    constructor
    · intro h
      cases h
      exact ⟨rfl, rfl, rfl⟩
    · rintro ⟨h4, h5, h6⟩
      cases h4; cases h5; cases h6
      rfl
  · rename_i h
    constructor
    · intro h; cases h
    · rintro ⟨h4, h5, h6⟩
      exact absurd h6 (h _ _ _ h4 h5)

theorem writeFrames_accepted (tr : Bool) (g : Bytes) (durations : List ℚ) (disposes : List Int) (xys : List (Int × Int)) :
    ∀ (ims : List PilImg) (n : Nat), (writeFrames tr g durations disposes xys n ims).2 = .ok () ↔
      ∀ (k : Nat) (im : PilImg), ims[k]? = some im → Fits durations disposes xys (n + k) im
  | [], n => by simp [writeFrames]
  | im :: rest, n => by
    have ih := writeFrames_accepted tr g durations disposes xys rest (n + 1)
    have hstep : (∃ b, (frameArgs durations disposes xys n >>= fun a => frameBytes tr g im a.1 a.2.1 a.2.2) = .ok b) ↔ Fits durations disposes xys n im := by
      constructor
      · rintro ⟨b, h⟩
        obtain ⟨a, ha, hb⟩ := bind_ok.mp h
        obtain ⟨h1, h2, h3⟩ := frameArgs_ok.mp ha
        exact ⟨_, _, _, h1, h2, h3, (frameBytes_accepted _ _ _ _ _ _).mp ⟨b, hb⟩⟩
      · rintro ⟨d, p, xy, h1, h2, h3, h4⟩
        obtain ⟨b, hb⟩ := (frameBytes_accepted tr g im d p xy).mpr h4
        exact ⟨b, bind_ok.mpr ⟨(d, p, xy), frameArgs_ok.mpr ⟨h1, h2, h3⟩, hb⟩⟩
    have hall : (∀ (k : Nat) (x : PilImg), (im :: rest)[k]? = some x → Fits durations disposes xys (n + k) x) ↔
        Fits durations disposes xys n im ∧ ∀ (k : Nat) (x : PilImg), rest[k]? = some x → Fits durations disposes xys (n + 1 + k) x := by
      constructor
      · intro h
        refine ⟨h 0 im rfl, fun k x hx => ?_⟩
        have := h (k + 1) x (by simpa using hx)
        rwa [show n + (k + 1) = n + 1 + k by omega] at this
      · rintro ⟨h1, h2⟩ k x hx
        cases k with
        | zero => simp at hx; subst hx; exact h1
        | succ k =>
          rw [show n + (k + 1) = n + 1 + k by omega]
          exact h2 k x (by simpa using hx)
    rw [hall, ← ih, ← hstep]
    conv_lhs => unfold writeFrames
    split
    · rename_i e he
      constructor
      · intro h; cases h
      · rintro ⟨⟨b, hb⟩, -⟩
        rw [he] at hb; cases hb
    · rename_i b hb
      exact ⟨fun h => ⟨⟨b, hb⟩, h⟩, fun h => h.2⟩

/-- **C92** Writing succeeds exactly if there is an image, and the number of repetitions and all times, places and sizes fit into two
bytes. -/
theorem C92_accepted (tr : Bool) (ims : List PilImg) (durations : List ℚ) (loops : Int) (xys : List (Int × Int)) (disposes : List Int) :
    (writeGifToFile tr ims durations loops xys disposes).2 = .ok () ↔
      ims ≠ [] ∧ (0 ≤ loops ∧ loops < 65536) ∧ ∀ (k : Nat) (im : PilImg), ims[k]? = some im → Fits durations disposes xys k im := by
  have hw := fun g => writeFrames_accepted tr g durations disposes xys ims 0
  simp only [Nat.zero_add] at hw
  constructor
  · intro h
    obtain ⟨g, im0, hd, ext, hg, h0, hh, he, hf, -⟩ := written_ok h
    have hne : ims ≠ [] := by
      rintro rfl
      cases h0
    refine ⟨hne, ?_, (hw g).mp hf⟩
    unfold appExt at he
    dsimp only at he
    split at he
    · omega
    · split at he
      · omega
      · obtain ⟨b, hb, -⟩ := bind_ok.mp he
        obtain ⟨a, b, -⟩ := intToBin_ok.mp hb
        exact ⟨a, b⟩
  · rintro ⟨hne, hl, hfit⟩
    obtain ⟨im, rest, rfl⟩ := List.exists_cons_of_ne_nil hne
    obtain ⟨g, hg⟩ : ∃ g, mostUsed ((im :: rest).map (·.palette)) = .ok g := by
      unfold mostUsed
      generalize hps : (im :: rest).map (·.palette) = ps
      have hpn : ps ≠ [] := by rw [← hps]; simp
      cases hm : (ps.map fun p => ps.count p).max? with
      | none =>
        rw [List.max?_eq_none_iff] at hm
        simp at hm
        exact absurd hm hpn
      | some m =>
        dsimp only
        have hmem := List.max?_mem hm
        obtain ⟨p, hp, hpm⟩ := List.mem_map.mp hmem
        cases hf : ps.find? fun p => decide (ps.count p = m) with
        | none =>
          rw [List.find?_eq_none] at hf
          exact absurd (by simpa using hpm) (hf p hp)
        | some q => exact ⟨q, rfl⟩
    have hbin : ∀ i : Int, 0 ≤ i → i < 65536 → ∃ b, intToBin i = .ok b := fun i h0 h1 => ⟨_, if_pos ⟨h0, h1⟩⟩
    have hfit0 := hfit 0 im rfl
    obtain ⟨d, p, xy, -, -, -, -, -, -, hw0, hh0⟩ := hfit0
    obtain ⟨hd, hhd⟩ : ∃ hd, headerAnim im = .ok hd := by
      obtain ⟨w, hw⟩ := hbin im.w (by omega) (by omega)
      obtain ⟨h, hh⟩ := hbin im.h (by omega) (by omega)
      exact ⟨_, bind_ok.mpr ⟨w, hw, bind_ok.mpr ⟨h, hh, rfl⟩⟩⟩
    obtain ⟨ext, he⟩ : ∃ ext, appExt loops = .ok ext := by
      unfold appExt
      dsimp only
      split
      · rw [if_neg (by decide)]
        obtain ⟨b, hb⟩ := hbin 65535 (by decide) (by decide)
        exact ⟨_, bind_ok.mpr ⟨b, hb, rfl⟩⟩
      · split
        · exact ⟨_, rfl⟩
        · obtain ⟨b, hb⟩ := hbin loops hl.1 hl.2
          exact ⟨_, bind_ok.mpr ⟨b, hb, rfl⟩⟩
    have hf := (hw g).mpr hfit
    unfold writeGifToFile
    rw [hg]
    show (gifBytes g (headerAnim im) (appExt loops) (writeFrames tr g durations disposes xys 0 (im :: rest))).2 = .ok ()
    rw [hhd, he]
    generalize writeFrames tr g durations disposes xys 0 (im :: rest) = w at hf
    obtain ⟨b, r⟩ := w
    dsimp only at hf
    rw [hf]
    rfl

/-! ### The whole function -/

/-- Pictures alike within their size. -/
def Alike (d e : Drawn (List UInt8)) : Prop :=
  d.x = e.x ∧ d.y = e.y ∧ d.w = e.w ∧ d.h = e.h ∧ d.dispose = e.dispose ∧ ∀ i j, i < d.h → j < d.w → d.px i j = e.px i j

theorem play_alike (background : List UInt8) {l m : List (Drawn (List UInt8))} (h : List.Forall₂ Alike l m) :
    ∀ c, play background c l = play background c m := by
  induction h with
  | nil => intro c; rfl
  | @cons d e l m hd _ ih =>
    intro c
    obtain ⟨h1, h2, h3, h4, h5, h6⟩ := hd
    have hon : d.on c = e.on c := by
      funext i j
      unfold Drawn.on
      rw [h1, h2, h3, h4]
      split
      · exact h6 _ _ (by omega) (by omega)
      · rfl
    have haf : d.after background c = e.after background c := by
      unfold Drawn.after
      rw [hon, h1, h2, h3, h4, h5]
    unfold play
    rw [hon, haf, ih]

theorem play_corner (background : List UInt8) {l : List (Drawn (List UInt8))} {ims : List Img}
    (h : List.Forall₂ (fun d im => d.x = 0 ∧ d.y = 0 ∧ d.w = im.w ∧ d.h = im.h ∧ ∀ i j, i < im.h → j < im.w → d.px i j = im.px i j) l ims) :
    ∀ c, List.Forall₂ Shows (play background c l) ims := by
  induction h with
  | nil => intro c; exact .nil
  | @cons d im l m hd _ ih =>
    intro c
    obtain ⟨h1, h2, h3, h4, h6⟩ := hd
    refine .cons ?_ (ih _)
    intro i j hi hj
    unfold Drawn.on
    rw [h1, h2, if_pos (by omega)]
    exact h6 i j hi hj

theorem checkImages_length {ims : List RawImg} {gs : List GifImg} (h : checkImages ims = .ok gs) : gs.length = ims.length :=
  (mapM_ok_inv h).1

theorem placeImages_length {sub : SubArg} {gs : List GifImg} {r : List (GifImg × (Int × Int)) × Int} (h : placeImages sub gs = .ok r) :
    r.1.length = gs.length := by
  unfold placeImages at h
  split at h
  · cases h; simp
  · cases h; simp
  · split at h
    · cases h; simp; omega
    · cases h
  · obtain ⟨l, hl, h⟩ := bind_ok.mp h
    cases h
    cases gs with
    | nil => cases hl; rfl
    | cons g gs =>
      cases gs with
      | nil => cases hl; rfl
      | cons g2 gs =>
        obtain ⟨l', hl', hl⟩ := bind_ok.mp hl
        cases hl
        have := (subRectLoop_get _ _ _ hl').1
        simpa using this


/-- What comes before the file is opened, step by step. -/
theorem prepareGif_ok {pil : Bool → Img → PilImg} {ims : List RawImg} {a : GifArgs} {r : Bool × List PilImg × List ℚ × List (Int × Int) × List Int}
    (h : prepareGif pil ims a = .ok r) : ∃ gs placed conv, checkImages ims = .ok gs ∧ a.duration.list gs.length = .ok r.2.2.1 ∧
      placeImages a.sub gs = .ok placed ∧ (a.dispose.getD (.all placed.2)).list placed.1.length = .ok r.2.2.2.2 ∧
      convertImages pil a.nq (placed.1.map (·.1)) = .ok conv ∧ r.1 = conv.1 ∧ r.2.1 = conv.2 ∧ r.2.2.2.1 = placed.1.map (·.2) := by
  obtain ⟨gs, h1, h⟩ := bind_ok.mp h
  obtain ⟨ds, h2, h⟩ := bind_ok.mp h
  obtain ⟨placed, h3, h⟩ := bind_ok.mp h
  obtain ⟨ps, h4, h⟩ := bind_ok.mp h
  obtain ⟨conv, h5, h⟩ := bind_ok.mp h
  cases h
  exact ⟨gs, placed, conv, h1, h2, h3, h4, h5, rfl, rfl, rfl⟩

theorem writeGif_untouched {pil : Bool → Img → PilImg} {ims : List RawImg} {a : GifArgs}
    (h : ∀ r, prepareGif pil ims a ≠ .ok r) : (writeGif pil ims a).1 = none ∧ ∃ e, (writeGif pil ims a).2 = .error e := by
  unfold writeGif
  cases hp : prepareGif pil ims a with
  | error e => exact ⟨rfl, e, rfl⟩
  | ok r => exact absurd hp (h r)

/-- **C92** With an image that is none, a list of a wrong length, or a quality asked for, the function fails and the file is left as
it was. -/
theorem C92_untouched (pil : Bool → Img → PilImg) (ims : List RawImg) (a : GifArgs)
    (hbad : (∃ r ∈ ims, ∃ e, checkImage r = .error e) ∨ (∃ l, a.duration = .each l ∧ l.length ≠ ims.length) ∨
      (∃ l, a.sub = .given l ∧ l ≠ [] ∧ l.length ≠ ims.length) ∨ (∃ l, a.dispose = some (.each l) ∧ l.length ≠ ims.length) ∨
      (1 ≤ a.nq ∧ ims ≠ [])) :
    (writeGif pil ims a).1 = none ∧ ∃ e, (writeGif pil ims a).2 = .error e := by
  apply writeGif_untouched
  intro r hr
  obtain ⟨gs, placed, conv, h1, h2, h3, h4, h5, -⟩ := prepareGif_ok hr
  have l1 := checkImages_length h1
  have l2 := placeImages_length h3
  rcases hbad with ⟨x, hx, e, he⟩ | ⟨l, hl, hn⟩ | ⟨l, hl, hn0, hn⟩ | ⟨l, hl, hn⟩ | ⟨hq, hne⟩
  · obtain ⟨i, hi, rfl⟩ := List.getElem_of_mem hx
    have := (mapM_ok_inv h1).2 i hi (by omega)
    rw [he] at this
    cases this
  · rw [hl] at h2
    unfold PerFrame.list at h2
    dsimp only at h2
    rw [if_neg (by omega)] at h2
    cases h2
  · rw [hl] at h3
    cases l with
    | nil => exact hn0 rfl
    | cons p l =>
      unfold placeImages at h3
      dsimp only at h3
      rw [if_neg (by simp at hn; omega)] at h3
      cases h3
  · rw [hl] at h4
    unfold PerFrame.list at h4
    dsimp only [Option.getD] at h4
    rw [if_neg (by omega)] at h4
    cases h4
  · unfold convertImages at h5
    dsimp only at h5
    rw [if_pos hq] at h5
    cases hp : placed.1 with
    | nil =>
      rw [hp] at l2
      have : ims.length = 0 := by simp at l2; omega
      exact hne (List.length_eq_zero_iff.mp this)
    | cons p l =>
      rw [hp] at h5
      rw [List.map_cons] at h5
      dsimp only at h5
      split at h5 <;> cases h5

/-- How Pillow packs images of some kind: without loss, and as the format asks for. `colours` is the unpacking of the format. The
kind includes parts. -/
structure Lossless (colours : Bytes → Bytes → Nat → Nat → Canvas (List UInt8)) (pil : Bool → Img → PilImg) (payload : PilImg → Bytes)
    (kind : Img → Prop) : Prop where
  crop : ∀ im b, kind im → kind (cropImg im b)
  size : ∀ im, kind im → (pil false im).w = im.w ∧ (pil false im).h = im.h
  wellFormed : ∀ im, kind im → PilOk (pil false im) (payload (pil false im))
  pixels : ∀ im, kind im → ∀ i j, i < im.h → j < im.w → colours (pil false im).palette (payload (pil false im)) im.w im.h i j = im.px i j

theorem subRects_kind {kind : Img → Prop} (hcrop : ∀ im b, kind im → kind (cropImg im b)) {ims : List Img} (hk : ∀ im ∈ ims, kind im)
    {l : List (Img × (Nat × Nat))} (h : getSubRectangles ims = .ok l) : ∀ p ∈ l, kind p.1 := by
  have loop : ∀ (rest : List Img) (prev : Img) (l : List (Img × (Nat × Nat))), (∀ im ∈ rest, kind im) → subRectLoop prev rest = .ok l →
      ∀ p ∈ l, kind p.1 := by
    intro rest
    induction rest with
    | nil => intro prev l _ h; cases h; simp
    | cons im rest ih =>
      intro prev l hk h
      unfold subRectLoop at h
      split at h
      swap
      · cases h
      dsimp only at h
      obtain ⟨l', hl', h⟩ := bind_ok.mp h
      cases h
      intro p hp
      rcases List.mem_cons.mp hp with rfl | hp
      · exact hcrop _ _ (hk im (by simp))
      · exact ih im l' (fun x hx => hk x (by simp [hx])) hl' p hp
  match ims, hk, h with
  | [], _, h => cases h; simp
  | [im], hk, h => cases h; simpa using hk
  | im :: im2 :: rest, hk, h =>
    obtain ⟨l', hl', h⟩ := bind_ok.mp h
    cases h
    intro p hp
    rcases List.mem_cons.mp hp with rfl | hp
    · exact hk im (by simp)
    · exact loop _ im l' (fun x hx => hk x (by simp [hx])) hl' p hp

theorem subRects_ch {n : Nat} {ims : List Img} (hk : ∀ im ∈ ims, im.ch ≠ n) {l : List (Img × (Nat × Nat))} (h : getSubRectangles ims = .ok l) :
    ∀ p ∈ l, p.1.ch ≠ n :=
  subRects_kind (kind := fun im => im.ch ≠ n) (fun _ _ h => h) hk h

theorem convert_opaque {pil : Bool → Img → PilImg} {nq : Int} {gs : List GifImg} {conv : Bool × List PilImg}
    (hch : ∀ g ∈ gs, g.im.ch ≠ 4) (hne : gs ≠ []) (h : convertImages pil nq gs = .ok conv) : conv = (false, gs.map fun g => pil false g.im) := by
  unfold convertImages at h
  have ht : (gs.any fun g => g.arr && g.im.ch == 4) = false := by
    rw [List.any_eq_false]
    intro g hg
    simp [hch g hg]
  dsimp only at h
  rw [ht] at h
  split at h
  · cases gs with
    | nil => exact absurd rfl hne
    | cons g gs =>
      dsimp only at h
      split at h <;> cases h
  · obtain ⟨l, hl, h⟩ := bind_ok.mp h
    cases h
    have := mapM_ok_inv hl
    congr 1
    apply List.ext_getElem (by simp [this.1])
    intro i h1 h2
    have := this.2 i (by simpa using h2) h1
    rw [List.getElem_map]
    split at this
    · cases this
    · simp at this
      exact this.symm

/-- **C92** What a player shows: for opaque images that Pillow packs without loss, the file written, with sub-rectangles found
automatically or without them and the disposal that goes with that, shows the images one after the other. -/
theorem C92_plays {colours : Bytes → Bytes → Nat → Nat → Canvas (List UInt8)} {pil : Bool → Img → PilImg} {payload : PilImg → Bytes}
    {kind : Img → Prop} (hpil : Lossless colours pil payload kind) (ims : List RawImg) (gs : List GifImg) (hgs : checkImages ims = .ok gs)
    (hkind : ∀ g ∈ gs, kind g.im ∧ g.im.Ok ∧ g.im.ch ≠ 4) (a : GifArgs) (hsub : a.sub = .auto ∨ a.sub = .off) (hdisp : a.dispose = none) (b : Bytes)
    (h : writeGif pil ims a = (some b, .ok ())) (background : List UInt8) (screen : Canvas (List UInt8)) :
    ∃ f g0, Gif.readFile b = some f ∧ gs.head? = some g0 ∧ f.w = g0.im.w ∧ f.h = g0.im.h ∧
      (∀ fr ∈ f.frames, ∃ c, fr.control = some c ∧ c.transparent = none) ∧
      List.Forall₂ Shows (play background screen (f.frames.map (Gif.Frame.drawn colours))) (gs.map (·.im)) := by
  unfold writeGif at h
  cases hp : prepareGif pil ims a with
  | error e => rw [hp] at h; cases h
  | ok r =>
    rw [hp] at h
    obtain ⟨gs', placed, conv, h1, h2, h3, h4, h5, e1, e2, e3⟩ := prepareGif_ok hp
    rw [hgs] at h1
    cases h1
    obtain ⟨tr, ps, ds, xys, disps⟩ := r
    dsimp only at h e1 e2 e3 h2 h4
    obtain ⟨hb, hok⟩ := Prod.mk.inj h
    cases hb
    have l2 := placeImages_length h3
    have hne : ps ≠ [] := ((C92_accepted _ _ _ _ _ _).mp hok).1
    have hpne : placed.1.map (·.1) ≠ [] := by
      intro h0
      rw [h0] at h5
      unfold convertImages at h5
      dsimp only at h5
      split at h5 <;> cases h5 <;> exact hne e2
    -- the parts are of the kind
    have hparts : ∀ p ∈ placed.1, kind p.1.im ∧ p.1.im.ch ≠ 4 := by
      rcases hsub with hs | hs <;> rw [hs] at h3
      · obtain ⟨l, hl, h3⟩ := bind_ok.mp h3
        cases h3
        intro p hp
        obtain ⟨q, hq, rfl⟩ := List.mem_map.mp hp
        refine ⟨subRects_kind hpil.crop ?_ hl q hq, subRects_ch ?_ hl q hq⟩
        · intro im him
          obtain ⟨g, hg, rfl⟩ := List.mem_map.mp him
          exact (hkind g hg).1
        · intro im him
          obtain ⟨g, hg, rfl⟩ := List.mem_map.mp him
          exact (hkind g hg).2.2
      · cases h3
        intro p hp
        obtain ⟨q, hq, rfl⟩ := List.mem_map.mp hp
        exact ⟨(hkind q hq).1, (hkind q hq).2.2⟩
    have hconv := convert_opaque (by
      intro g hg
      obtain ⟨p, hp, rfl⟩ := List.mem_map.mp hg
      exact (hparts p hp).2) hpne h5
    rw [hconv] at e1 e2
    dsimp only at e1 e2
    rw [List.map_map] at e2
    subst e1 e2 e3
    rw [hdisp] at h4
    cases h4
    obtain ⟨g, im0, frames, q0, -, q1, q2, q3⟩ := C92_layout _ _ _ _ _ _ payload (by
      intro im him
      obtain ⟨p, hp, rfl⟩ := List.mem_map.mp him
      exact hpil.wellFormed _ (hparts p hp).1) hok
    have hlen : frames.length = placed.1.length := by simpa using q2
    have hfr : ∀ (k : Nat) (hk : k < placed.1.length), ∃ d, frames[k]? = some (frameSeen false g (pil false (placed.1[k]).1.im)
        (payload (pil false (placed.1[k]).1.im)) d placed.2 (placed.1[k]).2) := by
      intro k hk
      obtain ⟨d, p, xy, -, a2, a3, a4⟩ := q3 k (pil false (placed.1[k]).1.im) (by simp [hk])
      simp only [List.getElem?_replicate, hk, if_true, Option.some.injEq] at a2
      simp [hk] at a3
      subst a2 a3
      exact ⟨d, a4⟩
    -- the first image
    have hhead : ∃ g0, gs.head? = some g0 ∧ im0.w = g0.im.w ∧ im0.h = g0.im.h := by
      have hsz : ∀ im, kind im → (pil false im).w = im.w ∧ (pil false im).h = im.h := hpil.size
      have hk0 := hkind
      rcases hsub with hs | hs <;> rw [hs] at h3
      · obtain ⟨l, hl, h3⟩ := bind_ok.mp h3
        cases h3
        match gs, hl with
        | [], hl => cases hl; cases q0
        | [g0], hl =>
          cases hl
          simp at q0
          subst q0
          exact ⟨g0, rfl, hsz _ (hk0 g0 (by simp)).1⟩
        | g0 :: g1 :: gs, hl =>
          obtain ⟨l', hl', hl⟩ := bind_ok.mp hl
          cases hl
          simp at q0
          subst q0
          exact ⟨g0, rfl, hsz _ (hk0 g0 (by simp)).1⟩
      · cases h3
        cases gs with
        | nil => cases q0
        | cons g0 gs =>
          simp at q0
          subst q0
          exact ⟨g0, rfl, hsz _ (hk0 g0 (by simp)).1⟩
    obtain ⟨g0, hg0, hgw, hgh⟩ := hhead
    refine ⟨_, g0, q1, hg0, hgw, hgh, ?_, ?_⟩
    · intro fr hfr'
      obtain ⟨k, hk, rfl⟩ := List.getElem_of_mem hfr'
      obtain ⟨d, hd⟩ := hfr k (by rw [← hlen]; exact hk)
      rw [List.getElem?_eq_getElem hk, Option.some.injEq] at hd
      rw [hd]
      exact ⟨_, rfl, rfl⟩
    · dsimp only
      rcases hsub with hs | hs <;> rw [hs] at h3
      · obtain ⟨l, hl, h3⟩ := bind_ok.mp h3
        cases h3
        have hl' : l.length = frames.length := by rw [hlen]; simp
        have halike : List.Forall₂ Alike (frames.map (Gif.Frame.drawn colours)) (l.map (drawnAt 1)) := by
          rw [List.forall₂_iff_get]
          refine ⟨by simp [hl'], ?_⟩
          intro k hk1 hk2
          simp only [List.length_map] at hk1 hk2
          obtain ⟨d, hd⟩ := hfr k (by simpa using hk2)
          rw [List.getElem?_eq_getElem hk1, Option.some.injEq] at hd
          have hkd := (hparts (⟨(l[k]).1, true⟩, (((l[k]).2.1 : Int), ((l[k]).2.2 : Int))) (List.mem_map.mpr ⟨l[k], List.getElem_mem _, rfl⟩)).1
          have hsz := hpil.size _ hkd
          simp only [List.get_eq_getElem, List.getElem_map] at hd ⊢
          rw [hd]
          have hns : ¬ Shared g (pil false (l[k]).1) 1 := fun h => by cases h.2
          refine ⟨?_, ?_, hsz.1, hsz.2, rfl, ?_⟩
          · show (if Shared g (pil false (l[k]).1) 1 then 0 else _) = (l[k]).2.1
            rw [if_neg hns]; simp
          · show (if Shared g (pil false (l[k]).1) 1 then 0 else _) = (l[k]).2.2
            rw [if_neg hns]; simp
          · intro i j hi hj
            have hi' : i < (l[k]).1.h := hsz.2 ▸ hi
            have hj' : j < (l[k]).1.w := hsz.1 ▸ hj
            show colours (pil false (l[k]).1).palette (payload (pil false (l[k]).1)) (pil false (l[k]).1).w (pil false (l[k]).1).h i j = (l[k]).1.px i j
            have := hpil.pixels _ hkd i j hi' hj'
            rw [hsz.1, hsz.2]
            exact this
        rw [play_alike background halike]
        refine C91_shows background screen 1 (by decide) _ ?_ l hl
        intro im him
        obtain ⟨g, hg, rfl⟩ := List.mem_map.mp him
        exact (hkind g hg).2.1
      · cases h3
        apply play_corner
        rw [List.forall₂_iff_get]
        refine ⟨by simp [hlen], ?_⟩
        intro k hk1 hk2
        simp only [List.length_map] at hk1 hk2
        obtain ⟨d, hd⟩ := hfr k (by simpa using hk2)
        rw [List.getElem?_eq_getElem hk1, Option.some.injEq] at hd
        have hkd := (hkind gs[k] (List.getElem_mem _)).1
        have hsz := hpil.size _ hkd
        simp only [List.get_eq_getElem, List.getElem_map] at hd ⊢
        rw [hd]
        refine ⟨?_, ?_, hsz.1, hsz.2, ?_⟩
        · show (if Shared g (pil false (gs[k]).im) 2 then 0 else Int.toNat 0) = 0
          split <;> rfl
        · show (if Shared g (pil false (gs[k]).im) 2 then 0 else Int.toNat 0) = 0
          split <;> rfl
        · intro i j hi hj
          show colours (pil false (gs[k]).im).palette (payload (pil false (gs[k]).im)) (pil false (gs[k]).im).w (pil false (gs[k]).im).h i j = (gs[k]).im.px i j
          rw [hsz.1, hsz.2]
          exact hpil.pixels _ hkd i j hi hj

/-! ### Times and intensities -/

/-- **C92** An intensity between 0 and 1 becomes the part of 255 rounded down; those below and above count as 0 and 1. -/
theorem C92_intensity (x : ℚ) :
    (x ≤ 0 → floatByte x = 0) ∧ (1 ≤ x → floatByte x = 255) ∧ (0 ≤ x → x ≤ 1 → ((floatByte x).toNat : Int) = ⌊x * 255⌋) := by
  have main : ∀ y : ℚ, 0 ≤ y → y ≤ 1 → ((floatByte y).toNat : Int) = ⌊y * 255⌋ := by
    intro y h0 h1
    have hfl : 0 ≤ ⌊y * 255⌋ := Int.floor_nonneg.mpr (by linarith)
    have hfu : ⌊y * 255⌋ ≤ 255 := by
      have : ⌊y * 255⌋ ≤ ⌊((255 : Int) : ℚ)⌋ := Int.floor_le_floor (by push_cast; linarith)
      rwa [Int.floor_intCast] at this
    unfold floatByte
    dsimp only
    rw [if_neg (show ¬ y < 0 by linarith), if_neg (show ¬ y > 1 by linarith)]
    have hp : pyInt (y * 255) = ⌊y * 255⌋ := by
      unfold pyInt
      rw [if_pos (by linarith)]
    rw [hp, UInt8.toNat_ofNat']
    omega
  refine ⟨?_, ?_, main x⟩
  · intro h
    rcases h.lt_or_eq with h | rfl
    · unfold floatByte
      rw [if_pos h]
      decide +kernel
    · decide +kernel
  · intro h
    rcases h.lt_or_eq with h | rfl
    · unfold floatByte
      dsimp only
      rw [if_neg (show ¬ x < 0 by linarith), if_pos h]
      decide +kernel
    · decide +kernel

/-- **C92** The time read is the duration in hundredths of seconds, rounded down, for durations that are not negative. -/
theorem C92_delay (tr : Bool) (g : Bytes) (im : PilImg) (data : Bytes) (d : ℚ) (hd : 0 ≤ d) (p : Int) (xy : Int × Int) :
    ∃ c, (frameSeen tr g im data d p xy).control = some c ∧ (c.delay : ℚ) ≤ d * 100 ∧ d * 100 < c.delay + 1 := by
  refine ⟨_, rfl, ?_⟩
  have hp : pyInt (d * 100) = ⌊d * 100⌋ := by
    unfold pyInt
    rw [if_pos (by linarith)]
  dsimp only
  rw [hp]
  have hn : 0 ≤ ⌊d * 100⌋ := Int.floor_nonneg.mpr (by linarith)
  have hc : ((⌊d * 100⌋.toNat : Nat) : ℚ) = ((⌊d * 100⌋ : Int) : ℚ) := by
    rw [← Int.cast_natCast, Int.toNat_of_nonneg hn]
  rw [hc]
  exact ⟨Int.floor_le _, Int.lt_floor_add_one _⟩

/-- **C92** Which images are accepted, and what is taken from them: Pillow images as they are, arrays with rows and columns only (one
channel) or with three or four channels. Everything else raises a ValueError. -/
theorem C92_images :
    (∀ im, checkImage (.pil im) = .ok ⟨im, false⟩) ∧
    (∀ s px, (checkImage (.u8 s px)).isOk ↔ s.length = 2 ∨ s.length = 3 ∧ (s[2]? = some 3 ∨ s[2]? = some 4)) ∧
    (∀ s px g, checkImage (.u8 s px) = .ok g → g.arr = true ∧ g.im.px = px ∧ s[0]? = some g.im.h ∧ s[1]? = some g.im.w ∧
      (s.length = 2 → g.im.ch = 1) ∧ (s.length = 3 → s[2]? = some g.im.ch)) ∧
    (∀ s px, checkImage (.float s px) = checkImage (.u8 s fun i j => (px i j).map floatByte)) ∧
    ∀ r e, checkImage r = .error e → e = .ValueError := by
  have shape : ∀ s px, (imgOfShape s px).isOk ↔ s.length = 2 ∨ s.length = 3 ∧ (s[2]? = some 3 ∨ s[2]? = some 4) := by
    intro s px
    rcases s with _ | ⟨a, _ | ⟨b, _ | ⟨c, _ | ⟨d, l⟩⟩⟩⟩
    · simp [imgOfShape, Except.isOk, Except.toBool]
    · simp [imgOfShape, Except.isOk, Except.toBool]
    · simp [imgOfShape, Except.isOk, Except.toBool]
    · by_cases hc : c = 3 ∨ c = 4
      · simp [imgOfShape, Except.isOk, Except.toBool, hc]
      · simp [imgOfShape, Except.isOk, Except.toBool, hc]
    · simp [imgOfShape, Except.isOk, Except.toBool]
  have err : ∀ s px e, imgOfShape s px = .error e → e = .ValueError := by
    intro s px e h
    unfold imgOfShape at h
    split at h
    · cases h
    · split at h <;> cases h; rfl
    · cases h; rfl
  refine ⟨fun _ => rfl, ?_, ?_, fun _ _ => rfl, ?_⟩
  · intro s px
    rw [← shape s px]
    have e : checkImage (.u8 s px) = (imgOfShape s px >>= fun im => .ok ⟨im, true⟩) := rfl
    rw [e]
    cases imgOfShape s px <;> exact Iff.rfl
  · intro s px g h
    obtain ⟨im, h1, h⟩ := bind_ok.mp h
    cases h
    unfold imgOfShape at h1
    split at h1
    · cases h1; exact ⟨rfl, rfl, rfl, rfl, fun _ => rfl, fun h => absurd h (by simp)⟩
    · split at h1
      · cases h1; exact ⟨rfl, rfl, rfl, rfl, fun h => absurd h (by simp), fun _ => rfl⟩
      · cases h1
    · cases h1
  · intro r e h
    cases r with
    | pil im => cases h
    | u8 s px => 
      rcases bind_error.mp h with h | ⟨_, _, h⟩
      · exact err _ _ _ h
      · cases h
    | float s px =>
      rcases bind_error.mp h with h | ⟨_, _, h⟩
      · exact err _ _ _ h
      · cases h
    | int s px =>
      rcases bind_error.mp h with h | ⟨_, _, h⟩
      · exact err _ _ _ h
      · cases h
    | other => cases h; rfl

/-- Two by three pixels with four channels are accepted, with two channels not. -/
example : (checkImage (.u8 [2, 3, 4] fun _ _ => [1, 2, 3, 4])).isOk = true ∧ checkImage (.u8 [2, 3, 2] fun _ _ => [1, 2]) = .error .ValueError :=
  ⟨rfl, rfl⟩

theorem writeGif_file {pil : Bool → Img → PilImg} {payload : PilImg → Bytes}
    (hpil : ∀ tr im, (pil tr im).w < 65536 → (pil tr im).h < 65536 → PilOk (pil tr im) (payload (pil tr im)))
    {ims : List RawImg} {a : GifArgs} {b : Bytes} (h : writeGif pil ims a = (some b, .ok ())) :
    ∃ gs placed, ∃ ps : List PilImg, ∃ (ds : List ℚ) (disps : List Int) (tr : Bool) (g : Bytes) (f : Gif.File), checkImages ims = .ok gs ∧ placeImages a.sub gs = .ok placed ∧
      (a.dispose.getD (.all placed.2)).list placed.1.length = .ok disps ∧ ps.length = placed.1.length ∧
      Gif.readFile b = some f ∧ (0 ≤ loopsOf a.rep ∧ loopsOf a.rep < 65536) ∧ f.loops = loopsSeen (loopsOf a.rep) ∧ f.frames.length = ps.length ∧
      ∀ (k : Nat) (im : PilImg), ps[k]? = some im → ∃ d p xy, ds[k]? = some d ∧ disps[k]? = some p ∧ (placed.1.map (·.2))[k]? = some xy ∧
        f.frames[k]? = some (frameSeen tr g im (payload im) d p xy) ∧ 0 ≤ xy.1 ∧ 0 ≤ xy.2 := by
  unfold writeGif at h
  cases hp : prepareGif pil ims a with
  | error e => rw [hp] at h; cases h
  | ok r =>
    rw [hp] at h
    obtain ⟨gs, placed, conv, h1, -, h3, h4, h5, -, e2, e3⟩ := prepareGif_ok hp
    obtain ⟨tr, ps, ds, xys, disps⟩ := r
    dsimp only at h e2 e3 h4
    obtain ⟨hb, hok⟩ := Prod.mk.inj h
    cases hb
    have hlen : ps.length = placed.1.length := by
      rw [e2]
      unfold convertImages at h5
      dsimp only at h5
      split at h5
      · split at h5
        · rename_i hnil
          cases h5
          have := congrArg List.length hnil
          simpa using this.symm
        · split at h5 <;> cases h5
      · obtain ⟨l, hl, h5⟩ := bind_ok.mp h5
        cases h5
        have := (mapM_ok_inv hl).1
        simpa using this
    have hacc := (C92_accepted _ _ _ _ _ _).mp hok
    have hmem : ∀ im ∈ ps, PilOk im (payload im) := by
      intro im him
      have hfit : im.w < 65536 ∧ im.h < 65536 := by
        obtain ⟨k, hk, rfl⟩ := List.getElem_of_mem him
        obtain ⟨d, p, xy, -, -, -, -, -, -, hw, hh⟩ := hacc.2.2 k _ (List.getElem?_eq_getElem hk)
        exact ⟨hw, hh⟩
      rw [e2] at him
      unfold convertImages at h5
      dsimp only at h5
      split at h5
      · split at h5
        · cases h5; simp at him
        · split at h5 <;> cases h5
      · obtain ⟨l, hl, h5⟩ := bind_ok.mp h5
        cases h5
        obtain ⟨g, -, hg⟩ := (mapM_ok_mem hl).1 im him
        split at hg
        · cases hg
        · split at hg
          · cases hg
          · cases hg
            exact hpil _ _ hfit.1 hfit.2
    obtain ⟨g, im0, frames, -, -, q1, q2, q3⟩ := C92_layout _ _ _ _ _ _ payload hmem hok
    refine ⟨gs, placed, ps, ds, disps, tr, g, _, h1, h3, h4, hlen, q1, hacc.2.1, rfl, q2, ?_⟩
    intro k im hk
    obtain ⟨d, p, xy, a1, a2, a3, a4⟩ := q3 k im hk
    refine ⟨d, p, xy, a1, a2, e3 ▸ a3, a4, ?_⟩
    obtain ⟨d', p', xy', b1, b2, b3, c⟩ := hacc.2.2 k im hk
    rw [a3] at b3
    cases b3
    exact ⟨c.2.1.1, c.2.2.1.1⟩

/-- **C92** How often the pictures are shown: once if repetition is off, as often as asked if a number is given. -/
theorem C92_repeats (pil : Bool → Img → PilImg) (payload : PilImg → Bytes)
    (hpil : ∀ tr im, (pil tr im).w < 65536 → (pil tr im).h < 65536 → PilOk (pil tr im) (payload (pil tr im)))
    (ims : List RawImg) (a : GifArgs) (b : Bytes) (h : writeGif pil ims a = (some b, .ok ())) :
    ∃ f, Gif.readFile b = some f ∧ (a.rep = .inl false → f.loops = none) ∧
      ∀ n : Int, a.rep = .inr n → (n = 1 → f.loops = none) ∧ (2 ≤ n → f.loops.map Int.ofNat = some n) ∧ 0 ≤ n := by
  obtain ⟨gs, placed, ps, ds, disps, tr, g, f, -, -, -, -, hf, hl, hl2, -⟩ := writeGif_file hpil h
  refine ⟨f, hf, fun e => ?_, fun n e => ?_⟩
  · rw [hl2, e]; rfl
  · rw [e] at hl hl2
    have e1 : loopsOf (.inr n) = n := rfl
    rw [e1] at hl hl2
    refine ⟨fun h1 => by rw [hl2, h1]; rfl, fun h2 => ?_, hl.1⟩
    rw [hl2]
    unfold loopsSeen
    rw [if_neg (by omega), if_neg (by omega)]
    simp [hl.1]

/-- **C92** If places are given, the first image is at the corner, whatever place is given for it, and the others are where they
are to be (unless the disposal is changed). -/
theorem C92_positions (pil : Bool → Img → PilImg) (payload : PilImg → Bytes)
    (hpil : ∀ tr im, (pil tr im).w < 65536 → (pil tr im).h < 65536 → PilOk (pil tr im) (payload (pil tr im)))
    (ims : List RawImg) (a : GifArgs) (p0 : Int × Int) (l : List (Int × Int)) (hs : a.sub = .given (p0 :: l)) (hd : a.dispose = none) (b : Bytes)
    (h : writeGif pil ims a = (some b, .ok ())) :
    ∃ f, Gif.readFile b = some f ∧ f.frames.map (fun fr => ((fr.x : Int), (fr.y : Int))) = (0, 0) :: l := by
  obtain ⟨gs, placed, ps, ds, disps, tr, g, f, -, h3, h4, hlen, hf, -, -, hfl, hk⟩ := writeGif_file hpil h
  refine ⟨f, hf, ?_⟩
  rw [hs] at h3
  unfold placeImages at h3
  dsimp only at h3
  split at h3
  · rename_i hl
    cases h3
    rw [hd] at h4
    cases h4
    have hz : (gs.zip ((0, 0) :: l)).map (·.2) = (0, 0) :: l := by
      exact List.map_snd_zip (by simp; omega)
    have hzl : (gs.zip ((0, 0) :: l)).length = l.length + 1 := by simp; omega
    dsimp only at hk hlen
    rw [hz] at hk
    apply List.ext_getElem?
    intro k
    by_cases hkl : k < ps.length
    · obtain ⟨d, p, xy, -, a2, a3, a4, p1, p2⟩ := hk k _ (List.getElem?_eq_getElem hkl)
      rw [List.getElem?_map, a4, a3]
      obtain ⟨-, hp⟩ := List.mem_replicate.mp (List.mem_of_getElem? a2)
      subst hp
      have hsh : ¬ Shared g ps[k] 1 := fun h => absurd h.2 (by decide)
      simp only [frameSeen, if_neg hsh, Option.map_some]
      rw [Int.toNat_of_nonneg p1, Int.toNat_of_nonneg p2]
    · rw [List.getElem?_eq_none (by simp; omega), List.getElem?_eq_none (by simp; omega)]
  · cases h3

/-! ### What goes wrong -/

/-- **C92 refuted** Asked to repeat for ever, the file says 65535 times: in every file written so. -/
theorem C92_forever_refuted (pil : Bool → Img → PilImg) (payload : PilImg → Bytes)
    (hpil : ∀ tr im, (pil tr im).w < 65536 → (pil tr im).h < 65536 → PilOk (pil tr im) (payload (pil tr im)))
    (ims : List RawImg) (a : GifArgs) (ha : a.rep = .inl true) (b : Bytes) (h : writeGif pil ims a = (some b, .ok ())) :
    ∃ f, Gif.readFile b = some f ∧ f.loops = some 65535 := by
  unfold writeGif at h
  cases hp : prepareGif pil ims a with
  | error e => rw [hp] at h; cases h
  | ok r =>
    rw [hp] at h
    obtain ⟨gs, placed, conv, -, -, -, -, h5, -, e2, -⟩ := prepareGif_ok hp
    obtain ⟨tr, ps, ds, xys, disps⟩ := r
    dsimp only at h e2
    obtain ⟨hb, hok⟩ := Prod.mk.inj h
    cases hb
    have hmem : ∀ im ∈ ps, PilOk im (payload im) := by
      intro im him
      have hfit : im.w < 65536 ∧ im.h < 65536 := by
        obtain ⟨k, hk, rfl⟩ := List.getElem_of_mem him
        obtain ⟨d, p, xy, -, -, -, -, -, -, hw, hh⟩ := ((C92_accepted _ _ _ _ _ _).mp hok).2.2 k _ (List.getElem?_eq_getElem hk)
        exact ⟨hw, hh⟩
      rw [e2] at him
      unfold convertImages at h5
      dsimp only at h5
      split at h5
      · split at h5
        · cases h5; simp at him
        · split at h5 <;> cases h5
      · obtain ⟨l, hl, h5⟩ := bind_ok.mp h5
        cases h5
        obtain ⟨g, -, hg⟩ := (mapM_ok_mem hl).1 im him
        split at hg
        · cases hg
        · split at hg
          · cases hg
          · cases hg
            exact hpil _ _ hfit.1 hfit.2
    obtain ⟨g, im0, frames, -, -, q1, -⟩ := C92_layout _ _ _ _ _ _ payload hmem hok
    refine ⟨_, q1, ?_⟩
    rw [ha]
    rfl

/-- An encoder: a byte for each pixel of a grey image, in blocks of one byte. -/
def toyPil (_ : Bool) (im : Img) : PilImg :=
  ⟨im.w, im.h, List.replicate 768 0,
    [0x2C, 0, 0, 0, 0, UInt8.ofNat (im.w % 256), UInt8.ofNat (im.w / 256), UInt8.ofNat (im.h % 256), UInt8.ofNat (im.h / 256), 0, 8],
    ((List.range (im.h * im.w)).map fun k => [1, match im.px (k / im.w) (k % im.w) with | [b] => b | _ => 0]) ++ [[0]]⟩

def toyPayload (p : PilImg) : Bytes := (p.data.map (·.drop 1)).flatten

def toyColours (_ data : Bytes) (w _ : Nat) : Canvas (List UInt8) := fun i j =>
  match data[i * w + j]? with
  | some b => [b]
  | none => []

def Grey (im : Img) : Prop := im.ch = 1 ∧ im.Ok ∧ im.w < 65536 ∧ im.h < 65536

theorem toyPayload_eq (tr : Bool) (im : Img) :
    toyPayload (toyPil tr im) = (List.range (im.h * im.w)).map fun k => match im.px (k / im.w) (k % im.w) with | [b] => b | _ => 0 := by
  unfold toyPayload toyPil
  dsimp only
  rw [List.map_append, List.flatten_append, List.map_map]
  generalize List.range (im.h * im.w) = l
  induction l with
  | nil => rfl
  | cons a l ih =>
    simp only [List.map_cons, List.flatten_cons, Function.comp, List.cons_append, List.drop_succ_cons, List.drop_zero, List.nil_append] at ih ⊢
    rw [ih]

theorem toy_wellFormed (tr : Bool) (im : Img) (h3 : im.w < 65536) (h4 : im.h < 65536) : PilOk (toyPil tr im) (toyPayload (toyPil tr im)) := by
  refine ⟨List.length_replicate, ⟨_, _, _, _, rfl, ?_, ?_⟩, ?_⟩
  · unfold u16 toyPil
    rw [UInt8.toNat_ofNat', UInt8.toNat_ofNat']
    dsimp only
    omega
  · unfold u16 toyPil
    rw [UInt8.toNat_ofNat', UInt8.toNat_ofNat']
    dsimp only
    omega
  · refine ⟨(List.range (im.h * im.w)).map fun k => [match im.px (k / im.w) (k % im.w) with | [b] => b | _ => 0], ?_, ?_, ?_⟩
    · intro c hc
      obtain ⟨k, -, rfl⟩ := List.mem_map.mp hc
      simp
    · unfold toyPil blocksOf
      simp [List.map_map, Function.comp_def]
    · rw [toyPayload_eq]
      generalize List.range (im.h * im.w) = l
      induction l with
      | nil => rfl
      | cons a l ih => rw [List.map_cons, List.map_cons, List.flatten_cons, ← ih]; rfl

/-- There is such a way of packing. -/
theorem toy_lossless : Lossless toyColours toyPil toyPayload Grey where
  crop := by
    rintro im b ⟨h1, h2, h3, h4⟩
    unfold cropImg
    refine ⟨h1, ?_, by dsimp only; omega, by dsimp only; omega⟩
    intro i j hi hj
    dsimp only at hi hj ⊢
    exact h2 _ _ (by omega) (by omega)
  size := fun im _ => ⟨rfl, rfl⟩
  wellFormed := fun im h => toy_wellFormed false im h.2.2.1 h.2.2.2
  pixels := by
    rintro im ⟨h1, h2, h3, h4⟩ i j hi hj
    unfold toyColours
    rw [toyPayload_eq]
    have hlt : i * im.w + j < im.h * im.w := by
      have : (i + 1) * im.w ≤ im.h * im.w := Nat.mul_le_mul_right _ hi
      rw [Nat.add_mul, Nat.one_mul] at this
      omega
    have e1 : (i * im.w + j) / im.w = i := by
      rw [Nat.mul_comm, Nat.mul_add_div (by omega), Nat.div_eq_of_lt hj, Nat.add_zero]
    have e2 : (i * im.w + j) % im.w = j := by
      rw [Nat.mul_comm, Nat.mul_add_mod, Nat.mod_eq_of_lt hj]
    rw [List.getElem?_map, List.getElem?_range hlt, Option.map_some, e1, e2]
    have hl := h2 i j hi hj
    rw [h1] at hl
    match im.px i j, hl with
    | [b], _ => rfl

-- an instance for `C92_forever_refuted`
example : ∀ tr im, (toyPil tr im).w < 65536 → (toyPil tr im).h < 65536 → PilOk (toyPil tr im) (toyPayload (toyPil tr im)) := toy_wellFormed

/-- Two images of two rows and three columns that differ in the last pixel of the first row. -/
def toyA : Img := ⟨2, 3, 1, fun i j => [if i = 0 ∧ j = 0 then 7 else 0]⟩
def toyB : Img := ⟨2, 3, 1, fun i j => [if i = 0 ∧ j = 0 then 7 else if i = 0 ∧ j = 2 then 9 else 0]⟩
def rawOf (im : Img) : RawImg := .u8 [im.h, im.w] im.px
def toyArgs : GifArgs := ⟨.all (1/10), .inl true, 0, .auto, none⟩

-- the hypotheses of the theorems above are met
example : (getSubRectangles [toyA, toyB]).map (List.map fun p => (p.1.w, p.1.h, p.1.px 0 0, p.2)) =
    .ok [(3, 2, [7], (0, 0)), (1, 1, [9], (2, 0))] := by decide +kernel
example : toyA.Ok ∧ toyB.Ok ∧ Grey toyA ∧ Grey toyB := by
  have h1 : toyA.Ok := fun _ _ _ _ => rfl
  have h2 : toyB.Ok := fun _ _ _ _ => rfl
  exact ⟨h1, h2, ⟨rfl, h1, by decide, by decide⟩, ⟨rfl, h2, by decide, by decide⟩⟩
example : (writeGif toyPil [rawOf toyA, rawOf toyB] toyArgs).2 = .ok () := by decide +kernel
example : (writeGif toyPil [rawOf toyA, rawOf toyB] toyArgs).1.map List.length = some 2391 := by decide +kernel

-- instances for `C92_repeats` and `C92_positions`
example : ∀ tr im, (toyPil tr im).w < 65536 → (toyPil tr im).h < 65536 → PilOk (toyPil tr im) (toyPayload (toyPil tr im)) := toy_wellFormed
example : (writeGif toyPil [rawOf toyA, rawOf toyB] ⟨.all (1/10), .inl false, 0, .given [(3, 4), (5, 6)], none⟩).2 = .ok () ∧
    (writeGif toyPil [rawOf toyA, rawOf toyB] ⟨.all (1/10), .inr 7, 0, .given [(3, 4), (5, 6)], none⟩).2 = .ok () := by decide +kernel

/-- **C92 refuted** With all colours alike and frames to be cleared away, a frame is not shown at its place. -/
theorem C92_position_refuted : ∃ b f, writeGif toyPil [rawOf toyA, rawOf toyB] ⟨.all (1/10), .inl true, 0, .given [(0, 0), (5, 6)], some (.all 2)⟩ = (some b, .ok ()) ∧
    Gif.readFile b = some f ∧ f.frames.map (fun fr => (fr.x, fr.y)) = [(0, 0), (0, 0)] := by
  have h : (writeGif toyPil [rawOf toyA, rawOf toyB] ⟨.all (1/10), .inl true, 0, .given [(0, 0), (5, 6)], some (.all 2)⟩).2 = .ok () ∧
    ((writeGif toyPil [rawOf toyA, rawOf toyB] ⟨.all (1/10), .inl true, 0, .given [(0, 0), (5, 6)], some (.all 2)⟩).1.bind Gif.readFile).map
      (fun f => f.frames.map fun fr => (fr.x, fr.y)) = some [(0, 0), (0, 0)] := by decide +kernel
  generalize writeGif toyPil [rawOf toyA, rawOf toyB] ⟨.all (1/10), .inl true, 0, .given [(0, 0), (5, 6)], some (.all 2)⟩ = r at h
  obtain ⟨b, e⟩ := r
  obtain ⟨h1, h2⟩ := h
  dsimp only at h1 h2
  subst h1
  cases b with
  | none => cases h2
  | some b =>
    rw [Option.bind_some] at h2
    cases hf : Gif.readFile b with
    | none => rw [hf] at h2; cases h2
    | some f =>
      rw [hf] at h2
      exact ⟨b, f, rfl, hf, by simpa using h2⟩

/-- **C92 refuted** Without images, the function fails, and the file is empty afterwards. -/
theorem C92_empty_refuted (pil : Bool → Img → PilImg) : writeGif pil [] toyArgs = (some [], .error .ValueError) := rfl

/-- **C92 refuted** A time that does not fit into two bytes makes the function fail with part of the file written: the frames before
it, without the end. -/
theorem C92_unfinished_refuted : ∃ b, writeGif toyPil [rawOf toyA, rawOf toyB] ⟨.each [1/10, -1], .inl true, 0, .auto, none⟩ = (some b, .error .OverflowError) ∧
    b.length = 1600 ∧ Gif.readFile b = none := by
  have h : (writeGif toyPil [rawOf toyA, rawOf toyB] ⟨.each [1/10, -1], .inl true, 0, .auto, none⟩).2 = .error .OverflowError ∧
    (writeGif toyPil [rawOf toyA, rawOf toyB] ⟨.each [1/10, -1], .inl true, 0, .auto, none⟩).1.map (fun b => (b.length, Gif.readFile b)) = some (1600, none) := by decide +kernel
  generalize writeGif toyPil [rawOf toyA, rawOf toyB] ⟨.each [1/10, -1], .inl true, 0, .auto, none⟩ = r at h
  obtain ⟨b, e⟩ := r
  obtain ⟨h1, h2⟩ := h
  dsimp only at h1 h2
  subst h1
  cases b with
  | none => cases h2
  | some b =>
    simp at h2
    exact ⟨b, rfl, h2.1, h2.2⟩

/-- **C92 refuted** The better quantisation of colours never works: with `nq` of one or more, any images make the function fail. -/
theorem C92_quality_refuted (pil : Bool → Img → PilImg) (ims : List RawImg) (hne : ims ≠ []) (a : GifArgs) (hq : 1 ≤ a.nq) :
    ∃ e, (writeGif pil ims a).2 = .error e :=
  (C92_untouched pil ims a (.inr (.inr (.inr (.inr ⟨hq, hne⟩))))).2

/-- **C91 refuted** If the frames are to be cleared away, sub-rectangles do not show the images: what did not change is missing. -/
theorem C91_dispose_refuted : ∃ l, getSubRectangles [toyA, toyB] = .ok l ∧
    ∀ screen, ¬ List.Forall₂ Shows (play [0] screen (l.map (drawnAt 2))) [toyA, toyB] := by
  obtain ⟨l, hl⟩ := (C91_accepted toyA [toyB]).mpr (by simp [toyA, toyB])
  refine ⟨l, hl, ?_⟩
  intro screen h
  have hb : changeBox toyB toyA = (2, 3, 0, 1) := by decide +kernel
  obtain ⟨l', hl', hl⟩ := bind_ok.mp hl
  cases hl
  unfold subRectLoop at hl'
  rw [if_pos (by simp [toyA, toyB])] at hl'
  dsimp only at hl'
  obtain ⟨l2, hl2, hl'⟩ := bind_ok.mp hl'
  cases hl2
  cases hl'
  rw [hb] at h
  obtain ⟨-, h⟩ := List.forall₂_cons.mp h
  obtain ⟨h, -⟩ := List.forall₂_cons.mp h
  have := h 0 0 (by decide) (by decide)
  revert this
  simp [Drawn.on, Drawn.after, drawnAt, cropImg, toyA, toyB]

/-- **C92 refuted** Whole numbers are taken modulo 256: 256 is black and -1 is white. -/
theorem C92_integers_refuted : ∃ g, checkImage (.int [1, 2] fun _ j => [if j = 0 then 256 else -1]) = .ok g ∧ g.im.px 0 0 = [0] ∧ g.im.px 0 1 = [255] :=
  ⟨_, rfl, by decide +kernel, by decide +kernel⟩

/-- **C92 refuted** Images with and without transparency together are rejected, although each of them is accepted alone. -/
theorem C92_mixed_refuted (pil : Bool → Img → PilImg) (px py : Nat → Nat → List UInt8) (h w : Nat) (d : PerFrame ℚ) (hd : (d.list 2).isOk) (rep : Bool ⊕ Int) :
    writeGif pil [.u8 [h, w, 4] px, .u8 [h, w, 3] py] ⟨d, rep, 0, .off, none⟩ = (none, .error .IndexError) := by
  cases hdl : d.list 2 with
  | error e => rw [hdl] at hd; cases hd
  | ok l =>
    have : prepareGif pil [.u8 [h, w, 4] px, .u8 [h, w, 3] py] ⟨d, rep, 0, .off, none⟩ = .error .IndexError := by
      have e : prepareGif pil [.u8 [h, w, 4] px, .u8 [h, w, 3] py] ⟨d, rep, 0, .off, none⟩ = (d.list 2 >>= fun _ => .error .IndexError) := rfl
      rw [e, hdl]; rfl
    unfold writeGif
    rw [this]

example : ((PerFrame.all (1 / 10 : ℚ)).list 2).isOk = true ∧ (checkImage (.u8 [2, 3, 4] fun _ _ => [1, 2, 3, 4])).isOk = true := ⟨rfl, rfl⟩

/-! ### The theorems at these cases -/

example (screen : Canvas (List UInt8)) : ∃ l, getSubRectangles [toyA, toyB] = .ok l ∧ l.length = 2 ∧ List.Forall₂ Shows (play [0] screen (l.map (drawnAt 1))) [toyA, toyB] := by
  obtain ⟨l, hl⟩ := (C91_accepted toyA [toyB]).mpr (by simp [toyA, toyB])
  have hok : ∀ im ∈ [toyA, toyB], im.Ok := by
    intro im him
    rcases List.mem_pair.mp him with rfl | rfl <;> exact fun _ _ _ _ => rfl
  exact ⟨l, hl, (C91_smallest _ hok l hl).1, C91_shows [0] screen 1 (by decide) _ hok l hl⟩

example := C92_untouched toyPil [rawOf toyA, rawOf toyB] ⟨.each [1/10], .inl true, 0, .auto, none⟩ (.inr (.inl ⟨_, rfl, by decide⟩))

example := C92_quality_refuted toyPil [rawOf toyA, rawOf toyB] (by simp) ⟨.all (1/10), .inl true, 10, .auto, none⟩ (by decide)

example (tr : Bool) (g : Bytes) := C92_delay tr g (toyPil true toyA) [] (1 / 10) (by norm_num) 1 (3, 4)

example : ∃ b f, writeGif toyPil [rawOf toyA, rawOf toyB] ⟨.all (1/10), .inr 7, 0, .given [(3, 4), (5, 6)], none⟩ = (some b, .ok ()) ∧ Gif.readFile b = some f ∧
    f.loops = some 7 ∧ f.frames.map (fun fr => ((fr.x : Int), (fr.y : Int))) = [(0, 0), (5, 6)] := by
  have h2 : (writeGif toyPil [rawOf toyA, rawOf toyB] ⟨.all (1/10), .inr 7, 0, .given [(3, 4), (5, 6)], none⟩).2 = .ok () := by decide +kernel
  have h1 : (writeGif toyPil [rawOf toyA, rawOf toyB] ⟨.all (1/10), .inr 7, 0, .given [(3, 4), (5, 6)], none⟩).1.isSome = true := by decide +kernel
  obtain ⟨b, hb⟩ := Option.isSome_iff_exists.mp h1
  have h : writeGif toyPil [rawOf toyA, rawOf toyB] ⟨.all (1/10), .inr 7, 0, .given [(3, 4), (5, 6)], none⟩ = (some b, .ok ()) := Prod.ext hb h2
  obtain ⟨f, hf, -, hn⟩ := C92_repeats toyPil toyPayload toy_wellFormed _ _ b h
  obtain ⟨f', hf', hp⟩ := C92_positions toyPil toyPayload toy_wellFormed _ _ (3, 4) [(5, 6)] rfl rfl b h
  obtain rfl : f = f' := Option.some.inj (hf.symm.trans hf')
  have h7 := ((hn 7 rfl).2.1 (by decide))
  refine ⟨b, f, h, hf, ?_, hp⟩
  cases hl : f.loops with
  | none => rw [hl] at h7; cases h7
  | some n => rw [hl] at h7; exact congrArg some (Int.ofNat_inj.mp (Option.some.inj h7))

end Verif
