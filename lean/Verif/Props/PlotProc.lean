import Verif.Props.PlotTraj
import Verif.Props.Coords
/-
Pictures of the processes (C111).
-/
set_option linter.unusedSectionVars false
namespace Verif
open Dict

section
variable {K : Type} [Field K] [LinearOrder K] [IsStrictOrderedRing K]

/-- A cell of three vectors. -/
structure Cell3 (K : Type) where
  a : Fin 3 → K
  b : Fin 3 → K
  c : Fin 3 → K

/-- The cell as rows. -/
def Cell3.rows (s : Cell3 K) : List (List K) := [[s.a 0, s.a 1, s.a 2], [s.b 0, s.b 1, s.b 2], [s.c 0, s.c 1, s.c 2]]

/-- The points show the elements at the coordinates moved by `v` in the cell, in their colours and markers; white points have a grey edge. -/
def ShowsState (s : Cell3 K) (colors markers : Dict Str Str) (v : Fin 3 → K) (coords : List (List K)) (elems : List Str) (dots : List (Dot K)) : Prop :=
  dots.length = elems.length ∧ ∀ (i : Nat) (d : Dot K), dots[i]? = some d → ∃ t x y z, elems[i]? = some t ∧ coords[i]? = some [x, y, z] ∧
    d.x = (x + v 0) * s.a 0 + (y + v 1) * s.b 0 + (z + v 2) * s.c 0 ∧ d.y = (x + v 0) * s.a 1 + (y + v 1) * s.b 1 + (z + v 2) * s.c 1 ∧
    get? colors t = some d.color ∧ get? markers t = some d.marker ∧
    (d.color = str! "#FFFFFF" ∨ d.color = str! "#FFF" → d.edge = str! "#5E5E5E") ∧ (¬ (d.color = str! "#FFFFFF" ∨ d.color = str! "#FFF") → d.edge = d.color)

theorem toCartesian_three (s : Cell3 K) (x y z : K) : toCartesian s.rows [x, y, z] =
    .ok [x * s.a 0 + y * s.b 0 + z * s.c 0, x * s.a 1 + y * s.b 1 + z * s.c 1, x * s.a 2 + y * s.b 2 + z * s.c 2] := by
  unfold toCartesian Cell3.rows
  rw [if_neg (by simp)]
  simp [List.replicate]

theorem plotElements_shows (s : Cell3 K) (colors markers : Dict Str Str) (v : Fin 3 → K) (coords : List (List K)) (elems : List Str) (hne : coords ≠ [])
    (h3 : ∀ c ∈ coords, c.length = 3) (hl : coords.length = elems.length) (hc : ∀ t ∈ elems, t ∈ keys colors) (hm : ∀ t ∈ elems, t ∈ keys markers) :
    ∃ dots, plotElements s.rows (coords.map (translate [v 0, v 1, v 2])) elems colors markers = .ok dots ∧ ShowsState s colors markers v coords elems dots := by
  have hcart : ∀ c ∈ coords.map (translate [v 0, v 1, v 2]), ∃ r, toCartesian s.rows c = .ok r := by
    intro c hcm
    obtain ⟨d, hd, rfl⟩ := List.mem_map.mp hcm
    match d, h3 d hd with
    | [x, y, z], _ => exact ⟨_, toCartesian_three s _ _ _⟩
  obtain ⟨carts, hcs⟩ := mapM_ok_exists hcart
  have hci := mapM_ok_inv hcs
  have hcl : carts.length = elems.length := by rw [hci.1]; simp [hl]
  have hpos : ∀ (i : Nat) (r : List K), carts[i]? = some r → ∃ x y z, coords[i]? = some [x, y, z] ∧
      r = [(x + v 0) * s.a 0 + (y + v 1) * s.b 0 + (z + v 2) * s.c 0, (x + v 0) * s.a 1 + (y + v 1) * s.b 1 + (z + v 2) * s.c 1,
        (x + v 0) * s.a 2 + (y + v 1) * s.b 2 + (z + v 2) * s.c 2] := by
    intro i r hr
    obtain ⟨hi, hrr⟩ := List.getElem?_eq_some_iff.mp hr
    have hi2 : i < coords.length := by omega
    have hf := hci.2 i (by simpa using hi2) hi
    rw [List.getElem_map, hrr] at hf
    have hg := List.getElem?_eq_getElem hi2
    have hlen := h3 _ (List.getElem_mem hi2)
    generalize coords[i] = c at hf hg hlen
    match c, hlen with
    | [x, y, z], _ =>
      have e : toCartesian s.rows [x + v 0, y + v 1, z + v 2] = .ok r := hf
      rw [toCartesian_three] at e
      exact ⟨x, y, z, hg, (Except.ok.inj e).symm⟩
  have hdot : ∀ p ∈ elems.zip carts, ∃ d : Dot K, (do
      let color ← lookupText colors p.1
      let marker ← lookupText markers p.1
      let (x, y) ← firstTwo p.2
      pure ⟨x, y, color, if color = str! "#FFFFFF" ∨ color = str! "#FFF" then str! "#5E5E5E" else color, marker⟩ : Py (Dot K)) = .ok d ∧
      p.2[0]? = some d.x ∧ p.2[1]? = some d.y ∧ get? colors p.1 = some d.color ∧ get? markers p.1 = some d.marker ∧
      d.edge = (if d.color = str! "#FFFFFF" ∨ d.color = str! "#FFF" then str! "#5E5E5E" else d.color) := by
    rintro ⟨t, r⟩ hp
    obtain ⟨i, hi⟩ := List.mem_iff_getElem?.mp hp
    obtain ⟨hp1, hp2⟩ := List.getElem?_zip_eq_some.mp hi
    have h1 := hc t (List.mem_of_getElem? hp1)
    have h2 := hm t (List.mem_of_getElem? hp1)
    rw [← get?_isSome] at h1 h2
    obtain ⟨col, hcol⟩ := Option.isSome_iff_exists.mp h1
    obtain ⟨mk, hmk⟩ := Option.isSome_iff_exists.mp h2
    obtain ⟨x, y, z, -, rfl⟩ := hpos i r hp2
    refine ⟨⟨(x + v 0) * s.a 0 + (y + v 1) * s.b 0 + (z + v 2) * s.c 0, (x + v 0) * s.a 1 + (y + v 1) * s.b 1 + (z + v 2) * s.c 1, col,
      if col = str! "#FFFFFF" ∨ col = str! "#FFF" then str! "#5E5E5E" else col, mk⟩, ?_, rfl, rfl, hcol, hmk, rfl⟩
    dsimp only
    rw [lookupText_ok hcol, lookupText_ok hmk]
    rfl
  obtain ⟨dots, hd⟩ := mapM_ok_exists (fun p hp => ⟨_, (hdot p hp).choose_spec.1⟩)
  have hdi := mapM_ok_inv hd
  have hdl : dots.length = elems.length := by rw [hdi.1]; simp [hcl]
  refine ⟨dots, ?_, hdl, ?_⟩
  · unfold plotElements
    rw [if_neg (by simpa using hne), hcs]
    exact hd
  · intro i d hi
    obtain ⟨hil, hdd⟩ := List.getElem?_eq_some_iff.mp hi
    have hz : i < (elems.zip carts).length := by simp [hcl]; omega
    have hf := hdi.2 i hz hil
    obtain ⟨d', k1, k2, k3, k4, k5, k6⟩ := hdot _ (List.getElem_mem hz)
    have e : d' = d := by
      have := Except.ok.inj (k1.symm.trans hf)
      rw [this, hdd]
    subst e
    obtain ⟨z1, z2⟩ := List.getElem?_zip_eq_some.mp (List.getElem?_eq_getElem hz)
    obtain ⟨x, y, z, p1, p2⟩ := hpos i _ z2
    rw [p2] at k2 k3
    refine ⟨_, x, y, z, z1, p1, (Option.some.inj k2).symm, (Option.some.inj k3).symm, k4, k5, ?_, ?_⟩
    · intro h; rw [k6, if_pos h]
    · intro h; rw [k6, if_neg h]

/-- Of a process, the state before and the state after are drawn in two files with their titles. Missing: only the first group of coordinates on the first
basis site is shown (`C111_others_refuted`); a group without coordinates raises (`C111_empty_refuted`). -/
theorem C111_process_partial (s : Cell3 K) (colors markers : Dict Str Str) (basisCoords : List (List K)) (filename : Str) (p : DrawnProcess K)
    (g : List (List K)) (gs : List (List (List K))) (b : Nat) (bs : List Nat) (v : Fin 3 → K) (hg : p.groups = g :: gs) (hb : p.basis = b :: bs)
    (hv : basisCoords[b]? = some [v 0, v 1, v 2]) (hne : g ≠ []) (h3 : ∀ c ∈ g, c.length = 3) (h1 : g.length = p.before.length) (h2 : g.length = p.after.length)
    (hc : ∀ t ∈ p.before ++ p.after, t ∈ keys colors) (hm : ∀ t ∈ p.before ++ p.after, t ∈ keys markers) :
    ∃ d0 d1, plotProcess basisCoords s.rows colors markers filename p =
        .ok [(filename ++ str! "_0.png", p.reaction ++ str! "(before)", d0), (filename ++ str! "_1.png", p.reaction ++ str! "(after)", d1)] ∧
      ShowsState s colors markers v g p.before d0 ∧ ShowsState s colors markers v g p.after d1 := by
  obtain ⟨d0, e0, s0⟩ := plotElements_shows s colors markers v g p.before hne h3 h1 (fun t h => hc t (by simp [h])) (fun t h => hm t (by simp [h]))
  obtain ⟨d1, e1, s1⟩ := plotElements_shows s colors markers v g p.after hne h3 h2 (fun t h => hc t (by simp [h])) (fun t h => hm t (by simp [h]))
  refine ⟨d0, d1, ?_, s0, s1⟩
  have i0 : pyIndex p.groups 0 = .ok g := by rw [hg]; rfl
  have i1 : pyIndex p.basis 0 = .ok b := by rw [hb]; rfl
  have i2 : pyIndex basisCoords b = .ok [v 0, v 1, v 2] := by
    unfold pyIndex; rw [hv]
  unfold plotProcess
  simp only [i0, i1, bind, Except.bind]
  rw [i2]
  dsimp only
  rw [if_neg (by omega), moveCoords_ok hne h3 rfl]
  dsimp only
  rw [e0]
  dsimp only
  rw [if_neg (by omega), e1]
  rfl

end

/-- Two processes that differ in another group or in another basis site are drawn alike. -/
theorem C111_others_refuted {K : Type} [Field K] (basisCoords cell : List (List K)) (colors markers : Dict Str Str) (filename : Str) (r : Str)
    (g : List (List K)) (gs gs' : List (List (List K))) (b : Nat) (bs bs' : List Nat) (before after : List Str) :
    plotProcess basisCoords cell colors markers filename ⟨r, g :: gs, before, after, b :: bs⟩ =
    plotProcess basisCoords cell colors markers filename ⟨r, g :: gs', before, after, b :: bs'⟩ := rfl

/-- A group without coordinates raises. -/
theorem C111_empty_refuted : plotProcess (K := ℚ) [[0, 0, 0]] [[1, 0, 0], [0, 1, 0], [0, 0, 1]] [] [] (str! "f") ⟨str! "CO_g + *_s -> CO_s", [[]], [], [], [0]⟩ = .error .ValueError := by
  decide +kernel

/-- An element without a colour raises. -/
theorem C111_color_refuted : plotProcess (K := ℚ) [[0, 0, 0]] [[1, 0, 0], [0, 1, 0], [0, 0, 1]] [(str! "V", str! "#FFFFFF")] [(str! "V", str! "o")] (str! "f")
    ⟨str! "CO_g + *_s -> CO_s", [[[0, 0, 0]]], [str! "V"], [str! "CO"], [0]⟩ = .error .KeyError := by
  decide +kernel

example : plotProcess (K := ℚ) [[0, 0, 0], [0, 1 / 2, 0]] [[1, 0, 0], [1 / 2, 87 / 100, 0], [0, 0, 1]] [(str! "V", str! "#FFFFFF"), (str! "C", str! "#607B8B")]
    [(str! "V", str! "o"), (str! "C", str! "v")] (str! "./processes/process_0")
    ⟨str! "CO_g + *_s -> CO_s", [[[0, 0, 0]]], [str! "V"], [str! "C"], [1]⟩ =
    .ok [(str! "./processes/process_0_0.png", str! "CO_g + *_s -> CO_s(before)", [⟨1 / 4, 87 / 200, str! "#FFFFFF", str! "#5E5E5E", str! "o"⟩]),
      (str! "./processes/process_0_1.png", str! "CO_g + *_s -> CO_s(after)", [⟨1 / 4, 87 / 200, str! "#607B8B", str! "#607B8B", str! "v"⟩])] := by decide +kernel

/-! ### The names of the files -/

/-- The name of the file of a process, before (`false`) or after (`true`). -/
def procPic (path : Str) (i : Nat) (after : Bool) : Str := path ++ str! "process_" ++ Nat.toDigits 10 i ++ (if after then str! "_1.png" else str! "_0.png")

theorem procPic_inj {path : Str} {i j : Nat} {a b : Bool} (h : procPic path i a = procPic path j b) : i = j ∧ a = b := by
  unfold procPic at h
  generalize path ++ str! "process_" = pre at h
  rw [List.append_assoc, List.append_assoc] at h
  have h1 := List.append_cancel_left h
  have hb : ∀ b : Bool, ∀ c, (if b then str! "_1.png" else str! "_0.png").head? = some c → isDigit c = false := by
    intro b c hc
    cases b
    · cases hc; decide
    · cases hc; decide
  have t1 := span_digits (a := Nat.toDigits 10 i) (b := if a then str! "_1.png" else str! "_0.png") (digits_toDigits _) (hb a)
  have t2 := span_digits (a := Nat.toDigits 10 j) (b := if b then str! "_1.png" else str! "_0.png") (digits_toDigits _) (hb b)
  rw [h1] at t1
  have e1 := t1.1.symm.trans t2.1
  have e2 := t1.2.symm.trans t2.2
  refine ⟨?_, ?_⟩
  · have := congrArg intOf e1
    rwa [intOf_toDigits, intOf_toDigits] at this
  · cases a <;> cases b <;> first | rfl | exact absurd e2 (by decide)

theorem plotProcess_names {K : Type} [Field K] {basisCoords cell : List (List K)} {colors markers : Dict Str Str} {filename : Str} {p : DrawnProcess K}
    {l : List (Str × Str × List (Dot K))} (h : plotProcess basisCoords cell colors markers filename p = .ok l) :
    l.map (fun f => (f.1, f.2.1)) = [(filename ++ str! "_0.png", p.reaction ++ str! "(before)"), (filename ++ str! "_1.png", p.reaction ++ str! "(after)")] := by
  unfold plotProcess at h
  cases h1 : pyIndex p.groups 0 with
  | error e => rw [h1] at h; exact nomatch h
  | ok coords =>
  cases h2 : pyIndex p.basis 0 with
  | error e => rw [h1, h2] at h; exact nomatch h
  | ok basis =>
  cases h3 : pyIndex basisCoords basis with
  | error e => simp only [h1, h2, h3, bind, Except.bind] at h; exact nomatch h
  | ok v =>
  simp only [h1, h2, h3, bind, Except.bind] at h
  by_cases c1 : coords.length ≠ p.before.length
  · rw [if_pos c1] at h; exact nomatch h
  rw [if_neg c1] at h
  cases h4 : moveCoords coords v with
  | error e => rw [h4] at h; exact nomatch h
  | ok moved =>
  rw [h4] at h
  dsimp only at h
  cases h5 : plotElements cell moved p.before colors markers with
  | error e => rw [h5] at h; exact nomatch h
  | ok b =>
  rw [h5] at h
  dsimp only at h
  by_cases c2 : coords.length ≠ p.after.length
  · rw [if_pos c2] at h; exact nomatch h
  rw [if_neg c2] at h
  cases h6 : plotElements cell moved p.after colors markers with
  | error e => rw [h6] at h; exact nomatch h
  | ok a =>
  rw [h6] at h
  have := Except.ok.inj h
  rw [← this]
  rfl

/-- If all processes are drawn, there are two files for each in order, numbered from zero, with the equation of the process in the title, and no two have the
same name. -/
theorem C111_names {K : Type} [Field K] (basisCoords cell : List (List K)) (colors markers : Dict Str Str) (path : Str) (ps : List (DrawnProcess K))
    (l : List (Str × Str × List (Dot K))) (h : plotProcesses basisCoords cell colors markers path ps = .ok l) :
    l.map (fun f => (f.1, f.2.1)) = ps.zipIdx.flatMap (fun p => [(procPic path p.2 false, p.1.reaction ++ str! "(before)"),
      (procPic path p.2 true, p.1.reaction ++ str! "(after)")]) ∧ l.length = 2 * ps.length ∧ (l.map (·.1)).Nodup := by
  unfold plotProcesses at h
  cases hm : ps.zipIdx.mapM (fun p => plotProcess basisCoords cell colors markers (path ++ str! "process_" ++ Nat.toDigits 10 p.2) p.1) with
  | error e => rw [hm] at h; exact nomatch h
  | ok ls =>
  rw [hm] at h
  have hl : ls.flatten = l := Except.ok.inj h
  have hi := mapM_ok_inv hm
  have e1 : l.map (fun f => (f.1, f.2.1)) = ps.zipIdx.flatMap (fun p => [(procPic path p.2 false, p.1.reaction ++ str! "(before)"),
      (procPic path p.2 true, p.1.reaction ++ str! "(after)")]) := by
    rw [← hl, List.map_flatten, List.flatMap_def]
    congr 1
    apply List.ext_getElem
    · simpa using hi.1
    · intro i k1 k2
      rw [List.getElem_map, List.getElem_map]
      exact plotProcess_names (hi.2 i (by simpa using k2) (by simpa using k1))
  have e2 : l.map (·.1) = ps.zipIdx.flatMap (fun p => [procPic path p.2 false, procPic path p.2 true]) := by
    have := congrArg (List.map Prod.fst) e1
    rw [List.map_map, List.map_flatMap] at this
    exact this
  refine ⟨e1, ?_, ?_⟩
  · have := congrArg List.length e1
    rw [List.length_map, List.length_flatMap] at this
    rw [this]
    simp
    omega
  · rw [e2, List.nodup_flatMap]
    constructor
    · rintro ⟨p, i⟩ -
      simp only [List.nodup_cons, List.mem_singleton, List.not_mem_nil, not_false_eq_true, List.nodup_nil, and_true]
      intro e
      exact absurd (procPic_inj e).2 (by decide)
    · have hp : ps.zipIdx.Pairwise (fun a b => a.2 < b.2) := by
        rw [List.pairwise_iff_getElem]
        intro i j hi hj hij
        simpa using hij
      refine hp.imp ?_
      intro a b hab
      simp only [Function.onFun]
      intro x hx hy
      have hx' : ∃ u, x = procPic path a.2 u := by
        rcases List.mem_cons.mp hx with rfl | hx
        · exact ⟨false, rfl⟩
        · exact ⟨true, by simpa using hx⟩
      have hy' : ∃ u, x = procPic path b.2 u := by
        rcases List.mem_cons.mp hy with rfl | hy
        · exact ⟨false, rfl⟩
        · exact ⟨true, by simpa using hy⟩
      obtain ⟨u, hu⟩ := hx'
      obtain ⟨w, hw⟩ := hy'
      have := (procPic_inj (hu.symm.trans hw)).1
      omega

example : (plotProcesses (K := ℚ) [[0, 0, 0]] [[1, 0, 0], [0, 1, 0], [0, 0, 1]] [(str! "V", str! "#FFFFFF")] [(str! "V", str! "o")] (str! "./processes/")
    [⟨str! "A", [[[0, 0, 0]]], [str! "V"], [str! "V"], [0]⟩, ⟨str! "B", [[[0, 0, 0]]], [str! "V"], [str! "V"], [0]⟩]).toOption.map (·.map (·.1)) =
    some [str! "./processes/process_0_0.png", str! "./processes/process_0_1.png", str! "./processes/process_1_0.png", str! "./processes/process_1_1.png"] := by
  decide +kernel

/-! ### The theorems at these cases -/

example : plotProcesses (K := ℚ) [[0, 0, 0]] [[1, 0, 0], [0, 1, 0], [0, 0, 1]] [(str! "V", str! "#FFFFFF")] [(str! "V", str! "o")] (str! "./processes/")
    [⟨str! "A", [[[0, 0, 0]]], [str! "V"], [str! "V"], [0]⟩] ≠ .ok [] := fun h => absurd (C111_names _ _ _ _ _ _ _ h).2.1 (by decide)

end Verif
