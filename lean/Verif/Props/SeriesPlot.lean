import Verif.Model.MapPlot
import Verif.Lemmas.Py
import Verif.Lemmas.Rxn
import Verif.Lemmas.Network
import Verif.Props.Gather
import Mathlib.Tactic.Linarith
import Mathlib.Tactic.Ring
/-
C116: figures of series over one pressure and of the coverages of a run.
-/
namespace Verif

/-! ### Specification -/

/-- A curve shows the values `ys` over the places `xs`: at each place in turn its own value. -/
def Curve {K : Type} (xs ys : List K) (pts : List (K × K)) : Prop :=
  pts.length = xs.length ∧ xs.length = ys.length ∧ ∀ (i : Nat) (x y : K), xs[i]? = some x → ys[i]? = some y → pts[i]? = some (x, y)

variable {K : Type} [Field K] [LinearOrder K]

omit [Field K] [LinearOrder K] in
theorem drawCurve_iff (xs ys : List K) (pts : List (K × K)) : drawCurve xs ys = .ok pts ↔ Curve xs ys pts := by
  unfold drawCurve Curve
  constructor
  · intro h
    split at h
    · rename_i hl
      cases h
      refine ⟨by simp [hl], hl, fun i x y hx hy => ?_⟩
      rw [List.getElem?_zip_eq_some]
      exact ⟨hx, hy⟩
    · cases h
  · rintro ⟨h1, h2, h3⟩
    rw [if_pos h2]
    congr 1
    refine List.ext_getElem? fun i => ?_
    by_cases hi : i < xs.length
    · have hi' : i < ys.length := h2 ▸ hi
      rw [h3 i xs[i] ys[i] (List.getElem?_eq_getElem hi) (List.getElem?_eq_getElem hi'), List.getElem?_zip_eq_some]
      exact ⟨List.getElem?_eq_getElem hi, List.getElem?_eq_getElem hi'⟩
    · rw [List.getElem?_eq_none (by simp; omega), List.getElem?_eq_none (by omega)]

omit [Field K] [LinearOrder K] in
theorem drawCurve_error (xs ys : List K) (h : xs.length ≠ ys.length) : drawCurve xs ys = .error .ValueError := if_neg h

theorem axisLimits_ok {l : List K} (h : l ≠ []) : ∃ a b, a ∈ l ∧ b ∈ l ∧ (∀ x ∈ l, a ≤ x ∧ x ≤ b) ∧
    axisLimits l = .ok (a - (b - a) * (1 / 10), b + (b - a) * (1 / 10)) := by
  obtain ⟨a, ha⟩ : ∃ a, l.min? = some a := by
    rw [← Option.isSome_iff_exists, List.isSome_min?_iff]
    exact h
  obtain ⟨b, hb⟩ : ∃ b, l.max? = some b := by
    rw [← Option.isSome_iff_exists, List.isSome_max?_iff]
    exact h
  have h1 := List.min?_eq_some_iff.mp ha
  have h2 := List.max?_eq_some_iff.mp hb
  refine ⟨a, b, h1.1, h2.1, fun x hx => ⟨h1.2 x hx, h2.2 x hx⟩, ?_⟩
  unfold axisLimits
  rw [ha, hb]

variable [IsStrictOrderedRing K]

/-- **C116** The limits of an axis exist for every series that is not empty. They hold all of its values, with a tenth of their range as a margin on both sides; when two values
differ, no value lies on the border. -/
theorem C116_limits (l : List K) : (l = [] → axisLimits l = .error .ValueError) ∧ (l ≠ [] → ∃ lo hi, axisLimits l = .ok (lo, hi) ∧
    (∀ x ∈ l, lo ≤ x ∧ x ≤ hi) ∧ ((∃ x ∈ l, ∃ y ∈ l, x ≠ y) → ∀ x ∈ l, lo < x ∧ x < hi) ∧
    ∃ a ∈ l, ∃ b ∈ l, (∀ x ∈ l, a ≤ x ∧ x ≤ b) ∧ 10 * (a - lo) = b - a ∧ 10 * (hi - b) = b - a) := by
  constructor
  · rintro rfl
    rfl
  · intro h
    obtain ⟨a, b, ha, hb, hab, e⟩ := axisLimits_ok h
    have hle := (hab a ha).2
    refine ⟨_, _, e, fun x hx => ?_, ?_, a, ha, b, hb, hab, by ring, by ring⟩
    · have := hab x hx
      constructor <;> nlinarith
    · rintro ⟨x, hx, y, hy, hne⟩ w hw
      have hx' := hab x hx
      have hy' := hab y hy
      have hw' := hab w hw
      have hlt : a < b := by
        rcases lt_or_gt_of_ne hne with q | q <;> linarith
      constructor <;> linarith

omit [IsStrictOrderedRing K] in
/-- **C116** When all values of a series are the same – one run, or frequencies that are all zero – the axis has no extent: both limits are that value. -/
theorem C116_extent_refuted (l : List K) (x : K) (h : l ≠ []) (hx : ∀ y ∈ l, y = x) : axisLimits l = .ok (x, x) := by
  obtain ⟨a, b, ha, hb, -, e⟩ := axisLimits_ok h
  rw [e, hx a ha, hx b hb]
  simp

omit [IsStrictOrderedRing K] in
/-- **C116** The figure of a series is drawn exactly when there is a run and the files hold as many frequencies and coverages as pressures. Then its curves show the coverages and the
frequencies over the pressures, each at its place in the files; its limits are those of the pressures and of the frequencies. In all other cases the script ends with an error. -/
theorem C116_series (p tofs co o : List K) (fig : SeriesFigure K) : (seriesFigure p tofs co o = .ok fig ↔
    p ≠ [] ∧ Curve p co fig.co ∧ Curve p o fig.o ∧ Curve p tofs fig.tof ∧ axisLimits p = .ok fig.xlim ∧ axisLimits tofs = .ok fig.tofLim ∧ fig.legend = (0, 0)) ∧
    (¬ (p ≠ [] ∧ p.length = co.length ∧ p.length = o.length ∧ p.length = tofs.length) → seriesFigure p tofs co o = .error .ValueError) := by
  constructor
  · constructor
    · intro h
      obtain ⟨xl, h1, h⟩ := bind_ok.mp h
      obtain ⟨c, h2, h⟩ := bind_ok.mp h
      obtain ⟨ox, h3, h⟩ := bind_ok.mp h
      obtain ⟨tl, h4, h⟩ := bind_ok.mp h
      obtain ⟨t, h5, h⟩ := bind_ok.mp h
      cases h
      refine ⟨?_, (drawCurve_iff _ _ _).mp h2, (drawCurve_iff _ _ _).mp h3, (drawCurve_iff _ _ _).mp h5, h1, h4, rfl⟩
      rintro rfl
      cases h1
    · rintro ⟨-, h2, h3, h5, h1, h4, h6⟩
      refine bind_ok.mpr ⟨fig.xlim, h1, bind_ok.mpr ⟨fig.co, (drawCurve_iff _ _ _).mpr h2, bind_ok.mpr ⟨fig.o, (drawCurve_iff _ _ _).mpr h3, bind_ok.mpr ⟨fig.tofLim, h4,
        bind_ok.mpr ⟨fig.tof, (drawCurve_iff _ _ _).mpr h5, ?_⟩⟩⟩⟩⟩
      rw [← h6]
      rfl
  · intro h
    by_cases hp : p = []
    · subst hp
      rfl
    obtain ⟨a, b, -, -, -, e⟩ := axisLimits_ok hp
    unfold seriesFigure
    rw [e]
    show (drawCurve p co >>= _) = _
    by_cases h1 : p.length = co.length
    swap
    · rw [drawCurve_error _ _ h1]
      rfl
    rw [show drawCurve p co = .ok (p.zip co) from if_pos h1]
    show (drawCurve p o >>= _) = _
    by_cases h2 : p.length = o.length
    swap
    · rw [drawCurve_error _ _ h2]
      rfl
    rw [show drawCurve p o = .ok (p.zip o) from if_pos h2]
    show (axisLimits tofs >>= _) = _
    have h3 : p.length ≠ tofs.length := fun h3 => h ⟨hp, h1, h2, h3⟩
    by_cases ht : tofs = []
    · subst ht
      rfl
    obtain ⟨a', b', -, -, -, e'⟩ := axisLimits_ok ht
    rw [e']
    show (drawCurve p tofs >>= _) = _
    rw [drawCurve_error _ _ h3]
    rfl

omit [IsStrictOrderedRing K] in
/-- **C116** From the directories of the runs to the figure: when each directory holds a file of coverages and one of frequencies that can be read, then
both scripts that collect write the same pressures and the figure shows for each run, at its pressure, its two coverages and its frequency, and nothing else. Missing: runs for which
one of the two files is absent (`C116_runs_refuted`). -/
theorem C116_runs_partial (toFloat : Str → Option K) (argsort : List K → List Nat) (ha : ∀ l, IsArgsort l (argsort l)) (text : K → Str) (ps : List K) (hps : ps ≠ [])
    (file : K → List (Stmt K)) (co o tof : K → K) (rates : K → Dict Str K)
    (h : ∀ p ∈ ps, RowFor toFloat ⟨str! "./" ++ text p, some (file p), some (.ok (some (rates p)))⟩ (p, co p, o p))
    (ht : ∀ p ∈ ps, rateSum [0, 2] (rates p) = .ok (tof p)) :
    ∃ qs cs os qs' ts fig, gatherCvgs toFloat argsort (ps.map fun p => ⟨str! "./" ++ text p, some (file p), some (.ok (some (rates p)))⟩) = .ok (qs, cs, os) ∧
      gatherTofs toFloat argsort (ps.map fun p => ⟨str! "./" ++ text p, some (file p), some (.ok (some (rates p)))⟩) = .ok (qs', ts) ∧
      seriesFigure qs' ts cs os = .ok fig ∧
      ∀ x y, ((x, y) ∈ fig.co ↔ x ∈ ps ∧ y = co x) ∧ ((x, y) ∈ fig.o ↔ x ∈ ps ∧ y = o x) ∧ ((x, y) ∈ fig.tof ↔ x ∈ ps ∧ y = tof x) := by
  obtain ⟨qs, q1, q2, q3⟩ := C105_series_partial toFloat argsort ha text ps file co o (fun p => some (.ok (some (rates p)))) h
  have hrows : tofRows toFloat (ps.map fun p => (⟨str! "./" ++ text p, some (file p), some (.ok (some (rates p)))⟩ : SeriesDir K)) = .ok (ps.map fun p => (p, tof p)) := by
    clear q1 q3 hps
    induction ps with
    | nil => rfl
    | cons p ps ih =>
      have ih := ih (fun p hp => h p (by simp [hp])) fun p hp => ht p (by simp [hp])
      rw [List.map_cons, List.map_cons]
      show (rateSum [0, 2] (rates p) >>= _) = _
      rw [ht p (by simp)]
      show (dirPressure toFloat (str! "./" ++ text p) >>= _) = _
      have hp : dirPressure toFloat (str! "./" ++ text p) = .ok p := by
        obtain ⟨-, -, t, -, -, -, -, -, -, -, e, et, -⟩ := h p (by simp)
        have e : text p = t := List.append_cancel_left e
        unfold dirPressure
        rw [e]
        show (match toFloat t with | some p => Except.ok p | none => Except.error PyErr.ValueError) = _
        rw [et]
      rw [hp, ih]
      rfl
  obtain ⟨table, t1, t2, t3, t4⟩ := gather_table (fun x : K × K => x.1) (ps.map fun p => (p, tof p)) (argsort ((ps.map fun p => (p, tof p)).map (·.1))) (ha _)
  have hg : gatherTofs toFloat argsort (ps.map fun p => ⟨str! "./" ++ text p, some (file p), some (.ok (some (rates p)))⟩) = .ok (table.map (·.1), table.map (·.2)) := by
    unfold gatherTofs
    rw [hrows]
    show (takeAt ((ps.map fun p => (p, tof p)).map (·.2)) (argsort ((ps.map fun p => (p, tof p)).map (·.1))) >>= _) = _
    rw [t3 _ fun x => x.2]
    show Except.ok (((ps.map fun p => (p, tof p)).map (·.1)).insertionSort (· ≤ ·), _) = _
    rw [t4]
  have hk : (table.map (·.1)).Perm ps := by
    have := t1.map (·.1)
    rw [List.map_map] at this
    rwa [show ((fun x : K × K => x.1) ∘ fun p => (p, tof p)) = id from rfl, List.map_id] at this
  have hq : table.map (·.1) = qs := (hk.trans q1.symm).eq_of_pairwise (le := (· ≤ ·)) (fun a b _ _ h1 h2 => le_antisymm h1 h2) t2 q2
  have htof : table.map (·.2) = qs.map tof := by
    rw [← hq, List.map_map]
    refine List.map_congr_left fun x hx => ?_
    obtain ⟨p, -, rfl⟩ := List.mem_map.mp (t1.subset hx)
    rfl
  have hq0 : qs ≠ [] := by
    rintro rfl
    exact hps (List.nil_perm.mp q1)
  rw [hq, htof] at hg
  obtain ⟨a, b, -, -, -, e1⟩ := axisLimits_ok hq0
  obtain ⟨a', b', -, -, -, e2⟩ := axisLimits_ok (l := qs.map tof) (by simpa using hq0)
  have curve : ∀ f : K → K, drawCurve qs (qs.map f) = .ok (qs.zip (qs.map f)) := fun f => if_pos (by simp)
  refine ⟨qs, _, _, qs, _, ⟨_, _, qs.zip (qs.map co), qs.zip (qs.map o), qs.zip (qs.map tof), (0, 0)⟩, q3, hg,
    bind_ok.mpr ⟨_, e1, bind_ok.mpr ⟨_, curve co, bind_ok.mpr ⟨_, curve o, bind_ok.mpr ⟨_, e2, bind_ok.mpr ⟨_, curve tof, rfl⟩⟩⟩⟩⟩, fun x y => ?_⟩
  have mem : ∀ f : K → K, (x, y) ∈ qs.zip (qs.map f) ↔ x ∈ ps ∧ y = f x := by
    intro f
    rw [List.zip_map_right, List.zip_eq_zipWith, List.zipWith_self, List.map_map, ← q1.mem_iff]
    constructor
    · intro hm
      obtain ⟨p, hp, e⟩ := List.mem_map.mp hm
      cases e
      exact ⟨hp, rfl⟩
    · rintro ⟨hx, rfl⟩
      exact List.mem_map.mpr ⟨x, hx, rfl⟩
  exact ⟨mem co, mem o, mem tof⟩

omit [IsStrictOrderedRing K] in
/-- **C116** Both scripts that collect pass over directories without their file, and the figure takes the pressures of the frequencies only: when at one pressure the frequencies and at
another the coverages are missing, the figure is drawn without an error and shows coverages at the pressure of another run. -/
theorem C116_runs_refuted : ∃ (dirs : List (SeriesDir ℚ)) (qs cs os qs' ts : List ℚ) (fig : SeriesFigure ℚ), (∃ d ∈ dirs, RowFor exFloat d (1, 1 / 2, 1 / 4)) ∧
    gatherCvgs exFloat exArgsort dirs = .ok (qs, cs, os) ∧ gatherTofs exFloat exArgsort dirs = .ok (qs', ts) ∧ seriesFigure qs' ts cs os = .ok fig ∧
    (3, 1 / 2) ∈ fig.co ∧ ∀ y, (1, y) ∉ fig.co := by
  refine ⟨[⟨str! "./1", some (exCvgFile (1 / 2) (1 / 20)), none⟩, ⟨str! "./3", none, some (.ok (some [(str! "a", 1), (str! "b", 2), (str! "c", 3)]))⟩],
    [1], [1 / 2], [1 / 4], [3], [4], ⟨(3, 3), (4, 4), [(3, 1 / 2)], [(3, 1 / 4)], [(3, 4)], (0, 0)⟩, ?_, by decide +kernel, by decide +kernel, by decide +kernel, by decide +kernel, ?_⟩
  · refine ⟨_, List.mem_cons_self, ?_⟩
    have := exCvgFile_row (1 / 2) (1 / 20) (str! "1") 1 (by decide +kernel) none
    norm_num at this ⊢
    exact this
  · intro y hy
    simp at hy

/-- **C116** The point drawn for the legend stands at the pressure zero with the coverage zero although no run gave it. It can be seen in the figure exactly when the least pressure is
at most a tenth of the range of the pressures; so it is seen for every series that starts at a small pressure. -/
theorem C116_legend_refuted (p tofs co o : List K) (fig : SeriesFigure K) (h : seriesFigure p tofs co o = .ok fig) (hp : ∀ x ∈ p, 0 < x) :
    fig.legend ∉ fig.co ∧ fig.legend ∉ fig.o ∧ fig.legend ∉ fig.tof ∧
    ∃ a ∈ p, ∃ b ∈ p, (∀ x ∈ p, a ≤ x ∧ x ≤ b) ∧ ((fig.xlim.1 ≤ fig.legend.1 ∧ fig.legend.1 ≤ fig.xlim.2) ↔ 10 * a ≤ b - a) := by
  obtain ⟨h1, h2, h3, h4, h5, -, h7⟩ := ((C116_series p tofs co o fig).1).mp h
  have no : ∀ {ys pts}, Curve p ys pts → (0, 0) ∉ pts := by
    rintro ys pts hc hm
    have e := (drawCurve_iff p ys pts).mpr hc
    unfold drawCurve at e
    rw [if_pos hc.2.1] at e
    cases e
    exact absurd (hp 0 (List.of_mem_zip hm).1) (lt_irrefl _)
  rw [h7]
  obtain ⟨a, b, ha, hb, hab, e⟩ := axisLimits_ok h1
  rw [e] at h5
  rw [← Except.ok.inj h5]
  have := hp a ha
  have := (hab a ha).2
  refine ⟨no h2, no h3, no h4, a, ha, b, hb, hab, ?_⟩
  dsimp only
  constructor
  · rintro ⟨q1, -⟩
    linarith
  · intro q
    constructor <;> linarith

/-! ### Steady states -/

omit [Field K] [LinearOrder K] [IsStrictOrderedRing K] in
theorem columnsOf_get (rows : List (List K)) (n : Nat) (hr : rows ≠ []) (hn : ∀ r ∈ rows, r.length = n) :
    columnsOf rows = (List.range n).map fun j => rows.filterMap (·[j]?) := by
  unfold columnsOf
  have : (rows.map List.length).min? = some n := by
    rw [List.min?_eq_some_iff]
    constructor
    · cases rows with
      | nil => exact absurd rfl hr
      | cons r l => exact List.mem_map.mpr ⟨r, by simp, hn r (by simp)⟩
    · intro b hb
      obtain ⟨r, hr, rfl⟩ := List.mem_map.mp hb
      exact (hn r hr).ge
  rw [this]

omit [Field K] [LinearOrder K] [IsStrictOrderedRing K] in
theorem column_eq (rows : List (List K)) (j n : Nat) (hj : j < n) (hn : ∀ r ∈ rows, r.length = n) (c : List K) (hc : c.length = rows.length)
    (h : ∀ (i : Nat) r x, rows[i]? = some r → r[j]? = some x → c[i]? = some x) : rows.filterMap (·[j]?) = c := by
  induction rows generalizing c with
  | nil => simpa [eq_comm] using hc
  | cons r rows ih =>
    have hr : j < r.length := by rw [hn r (by simp)]; exact hj
    have e : r[j]? = some r[j] := List.getElem?_eq_getElem hr
    rw [List.filterMap_cons, e]
    cases c with
    | nil => simp at hc
    | cons x c =>
      have h0 := h 0 r r[j] (by simp) e
      simp only [List.getElem?_cons_zero, Option.some.injEq] at h0
      rw [h0, ih (fun r hr => hn r (by simp [hr])) c (by simpa using hc) fun i r y hi hy => by simpa using h (i + 1) r y (by simpa using hi) hy]

omit [Field K] [LinearOrder K] [IsStrictOrderedRing K] in
/-- **C116** The figure of coverages and frequencies of steady states takes as the curve of carbon monoxide the coverages of the first adsorbate, run by run, and as that of oxygen those
of the second one. With fewer than two adsorbates, or without a run, the script ends with an error. Missing: that these are the adsorbates named (`C116_steady_refuted`). -/
theorem C116_steady_partial (names : List Str) (rows : List (List K)) (hn : ∀ r ∈ rows, r.length = names.length) :
    (rows = [] ∨ names.length < 2 → steadyCurves names rows = .error .IndexError) ∧
    (rows ≠ [] → 2 ≤ names.length → ∃ a b, steadyCurves names rows = .ok (a, b) ∧ a.length = rows.length ∧ b.length = rows.length ∧
      ∀ (i : Nat) r, rows[i]? = some r → a[i]? = r[0]? ∧ b[i]? = r[1]?) := by
  constructor
  · rintro h
    by_cases hr : rows = []
    · subst hr
      rfl
    have hlt := h.resolve_left hr
    unfold steadyCurves
    rw [columnsOf_get rows names.length hr hn]
    generalize names.length = n at hlt
    match n, hlt with
    | 0, _ => rfl
    | 1, _ => rfl
  · intro hr h2
    have col : ∀ j < names.length, ∃ c : List K, rows.filterMap (·[j]?) = c ∧ c.length = rows.length ∧ ∀ (i : Nat) r, rows[i]? = some r → c[i]? = r[j]? := by
      intro j hj
      have hex : ∀ r ∈ rows, ∃ x, r[j]? = some x := fun r hr => ⟨_, List.getElem?_eq_getElem (by rw [hn r hr]; exact hj)⟩
      have key : ∀ l : List (List K), (∀ r ∈ l, ∃ x, r[j]? = some x) → ∃ c : List K, c.length = l.length ∧ ∀ (i : Nat) r, l[i]? = some r → c[i]? = r[j]? := by
        intro l
        induction l with
        | nil => exact fun _ => ⟨[], rfl, fun i r h => by simp at h⟩
        | cons r l ih =>
          intro h
          obtain ⟨c, hc, hc'⟩ := ih fun r hr => h r (by simp [hr])
          obtain ⟨x, hx⟩ := h r (by simp)
          refine ⟨x :: c, by simp [hc], fun i r' hi => ?_⟩
          cases i with
          | zero =>
            simp only [List.getElem?_cons_zero, Option.some.injEq] at hi
            rw [← hi, hx]
            rfl
          | succ i => simpa using hc' i r' (by simpa using hi)
      obtain ⟨c, hc, hc'⟩ := key rows hex
      exact ⟨c, column_eq rows j _ hj hn c hc fun i r x hi hx => by rw [hc' i r hi, hx], hc, hc'⟩
    obtain ⟨a, a1, a2, a3⟩ := col 0 (by omega)
    obtain ⟨b, b1, b2, b3⟩ := col 1 (by omega)
    refine ⟨a, b, ?_, a2, b2, fun i r hi => ⟨a3 i r hi, b3 i r hi⟩⟩
    unfold steadyCurves
    rw [columnsOf_get rows names.length hr hn]
    obtain ⟨k, hk⟩ : ∃ k, names.length = k + 2 := ⟨names.length - 2, by omega⟩
    rw [hk, List.range_succ_eq_map, List.range_succ_eq_map]
    simp only [List.map_cons, List.map_map]
    rw [a1]
    show Except.ok (a, rows.filterMap (·[1]?)) = _
    rw [b1]

/-- **C116** The names of the adsorbates are read but not used: whatever they are, the same curves are drawn. So with oxygen listed first – the order of `CO_s` and `O_s` in a model is
that in which its reactions mention them – the curve labelled carbon monoxide shows oxygen; and the two scripts do not agree with each other on the same file. -/
theorem C116_steady_refuted : (∀ (names names' : List Str) (rows : List (List ℚ)), steadyCurves names rows = steadyCurves names' rows ∧
      steadyCurvesThree names rows = steadyCurvesThree names' rows) ∧
    steadyCurves [str! "O_s", str! "CO_s"] [[(1 / 4 : ℚ), 3 / 4]] = .ok ([1 / 4], [3 / 4]) ∧
    ∃ (names : List Str) (rows : List (List ℚ)) (a b : List ℚ), (∀ r ∈ rows, r.length = names.length) ∧ steadyCurves names rows = .ok (a, b) ∧ steadyCurvesThree names rows ≠ .ok (a, b) ∧
      ∃ q, steadyCurvesThree names rows = .ok q :=
  ⟨fun _ _ _ => ⟨rfl, rfl⟩, by decide +kernel, [str! "CO_s", str! "O_s", str! "O2_2s"], [[1 / 4, 1 / 2, 1 / 8]], [1 / 4], [1 / 2], by decide, by decide +kernel, by decide +kernel,
    ([3 / 4], [1 / 8]), by decide +kernel⟩

/-! ### Coverages of a lattice run -/

omit [Field K] [LinearOrder K] [IsStrictOrderedRing K] in
/-- **C116** The figure of the coverages of a lattice run is drawn exactly when every coverage that is shown has as many values as there are steps and times. Then both panels show for
each type in turn the curve of its own coverages under its own label, over the steps and over the times. -/
theorem C116_coverages (types : List Str) (steps times : List K) (cvgs : List (List K)) (hl : types.length = cvgs.length) (a b : List (Str × List (K × K))) :
    coveragePlot types steps times cvgs = .ok (a, b) ↔ a.length = types.length ∧ b.length = types.length ∧
      ∀ (i : Nat) sp c, types[i]? = some sp → cvgs[i]? = some c → ∃ ca cb, a[i]? = some (coverageLabel sp, ca) ∧ b[i]? = some (coverageLabel sp, cb) ∧
        Curve steps c ca ∧ Curve times c cb := by
  have panel : ∀ (xs : List K) (types : List Str) (cvgs : List (List K)), types.length = cvgs.length → ∀ p : List (Str × List (K × K)), coveragePanel types xs cvgs = .ok p ↔
      p.length = types.length ∧ ∀ (i : Nat) sp c, types[i]? = some sp → cvgs[i]? = some c → ∃ pts, p[i]? = some (coverageLabel sp, pts) ∧ Curve xs c pts := by
    intro xs types
    induction types with
    | nil =>
      intro cvgs hl p
      constructor
      · intro h
        cases h
        exact ⟨rfl, fun i sp c h => by simp at h⟩
      · rintro ⟨h, -⟩
        rw [List.length_eq_zero_iff.mp h]
        rfl
    | cons sp types ih =>
      intro cvgs hl p
      cases cvgs with
      | nil => simp at hl
      | cons c cvgs =>
        have ih := ih cvgs (by simpa using hl)
        unfold coveragePanel at ih ⊢
        rw [List.zip_cons_cons, List.mapM_cons]
        constructor
        · intro h
          obtain ⟨y, hy, h⟩ := bind_ok.mp h
          obtain ⟨pts, hp, hy⟩ := bind_ok.mp hy
          cases hy
          obtain ⟨ys, hys, h⟩ := bind_ok.mp h
          cases h
          obtain ⟨i1, i2⟩ := (ih ys).mp hys
          refine ⟨by simp [i1], fun i sp' c' h1 h2 => ?_⟩
          cases i with
          | zero =>
            simp only [List.getElem?_cons_zero, Option.some.injEq] at h1 h2
            subst h1 h2
            exact ⟨pts, rfl, (drawCurve_iff _ _ _).mp hp⟩
          | succ i => exact i2 i sp' c' (by simpa using h1) (by simpa using h2)
        · rintro ⟨h1, h2⟩
          cases p with
          | nil => simp at h1
          | cons q p =>
            obtain ⟨pts, e, hc⟩ := h2 0 sp c rfl rfl
            simp only [List.getElem?_cons_zero, Option.some.injEq] at e
            subst e
            refine bind_ok.mpr ⟨_, bind_ok.mpr ⟨pts, (drawCurve_iff _ _ _).mpr hc, rfl⟩, bind_ok.mpr ⟨p, (ih p).mpr ⟨by simpa using h1, fun i sp' c' q1 q2 => ?_⟩, rfl⟩⟩
            simpa using h2 (i + 1) sp' c' (by simpa using q1) (by simpa using q2)
  constructor
  · intro h
    obtain ⟨a', ha, h⟩ := bind_ok.mp h
    obtain ⟨b', hb, h⟩ := bind_ok.mp h
    cases h
    obtain ⟨a1, a2⟩ := (panel steps types cvgs hl a).mp ha
    obtain ⟨b1, b2⟩ := (panel times types cvgs hl b).mp hb
    refine ⟨a1, b1, fun i sp c h1 h2 => ?_⟩
    obtain ⟨ca, q1, q2⟩ := a2 i sp c h1 h2
    obtain ⟨cb, r1, r2⟩ := b2 i sp c h1 h2
    exact ⟨ca, cb, q1, r1, q2, r2⟩
  · rintro ⟨h1, h2, h3⟩
    refine bind_ok.mpr ⟨a, (panel steps types cvgs hl a).mpr ⟨h1, fun i sp c q1 q2 => ?_⟩, bind_ok.mpr ⟨b, (panel times types cvgs hl b).mpr ⟨h2, fun i sp c q1 q2 => ?_⟩, rfl⟩⟩
    · obtain ⟨ca, cb, r1, -, r2, -⟩ := h3 i sp c q1 q2
      exact ⟨ca, r1, r2⟩
    · obtain ⟨ca, cb, -, r1, -, r2⟩ := h3 i sp c q1 q2
      exact ⟨cb, r1, r2⟩

/-- **C116** Labels tell the types apart: two types have the same label only when they are the same. -/
theorem C116_labels (a b : Str) (h : coverageLabel a = coverageLabel b) : a = b := by
  unfold coverageLabel at h
  have hne : ∀ s : Str, str! "$\\bf{*}$" ≠ str! "$\\bf{" ++ s ++ str! "^{*}}$" := by
    intro s e
    have := congrArg List.length e
    simp at this
  split at h <;> split at h
  · simp_all
  · exact absurd h (hne b)
  · exact absurd h.symm (hne a)
  · exact List.append_cancel_left (List.append_cancel_right h)

/-- **C116** The type of empty sites is called `V` in the inputs of lattice runs; it is not shown as an empty site `*` but as an adsorbate. -/
theorem C116_vacancy_refuted : coverageLabel (str! "V") = str! "$\\bf{V^{*}}$" ∧ coverageLabel (str! "V") ≠ coverageLabel (str! "Vac") := by decide

/-! ### Cases -/

/-- A figure of three runs. -/
def exSeriesFigure : SeriesFigure ℚ := ⟨(1 - 9 / 10, 10 + 9 / 10), (-1, 11), [(1, 1 / 2), (4, 3 / 4), (10, 1)], [(1, 1 / 2), (4, 1 / 4), (10, 0)], [(1, 0), (4, 10), (10, 5)], (0, 0)⟩

theorem exSeriesFigure_ok : seriesFigure [1, 4, 10] [0, 10, 5] [1 / 2, 3 / 4, 1] [1 / 2, 1 / 4, 0] = .ok exSeriesFigure := by decide +kernel

example : axisLimits [(4 : ℚ), 1, 10] = .ok (1 / 10, 109 / 10) := by decide +kernel
example : axisLimits [(4 : ℚ), 4] = .ok (4, 4) := C116_extent_refuted _ 4 (by decide) (by decide)
example : Curve [(1 : ℚ), 4, 10] [0, 10, 5] exSeriesFigure.tof := (((C116_series _ _ _ _ _).1).mp exSeriesFigure_ok).2.2.2.1
example : seriesFigure [(1 : ℚ), 4] [0, 10] [1 / 2] [1 / 2, 1 / 4] = .error .ValueError := (C116_series _ _ _ _ exSeriesFigure).2 (by decide)
example : ∃ a ∈ [(1 : ℚ), 4, 10], ∃ b ∈ [(1 : ℚ), 4, 10], (∀ x ∈ [(1 : ℚ), 4, 10], a ≤ x ∧ x ≤ b) ∧
    ((exSeriesFigure.xlim.1 ≤ exSeriesFigure.legend.1 ∧ exSeriesFigure.legend.1 ≤ exSeriesFigure.xlim.2) ↔ 10 * a ≤ b - a) :=
  (C116_legend_refuted _ _ _ _ _ exSeriesFigure_ok (by decide +kernel)).2.2.2
example : ∃ fig, seriesFigure [(1 : ℚ), 12] [0, 10] [1 / 2, 1 / 2] [1 / 2, 1 / 4] = .ok fig ∧ fig.xlim.1 ≤ fig.legend.1 ∧ fig.legend.1 ≤ fig.xlim.2 :=
  ⟨⟨(-1 / 10, 131 / 10), (-1, 11), [(1, 1 / 2), (12, 1 / 2)], [(1, 1 / 2), (12, 1 / 4)], [(1, 0), (12, 10)], (0, 0)⟩, by decide +kernel, by decide +kernel, by decide +kernel⟩
example : ∃ a b, steadyCurves [str! "CO_s", str! "O_s"] [[(1 / 4 : ℚ), 3 / 4], [1 / 2, 1 / 8]] = .ok (a, b) ∧ a.length = 2 :=
  have ⟨a, b, h, hl, _⟩ := (C116_steady_partial [str! "CO_s", str! "O_s"] [[(1 / 4 : ℚ), 3 / 4], [1 / 2, 1 / 8]] (by decide)).2 (by decide) (by decide)
  ⟨a, b, h, hl⟩
example : coveragePlot [str! "V", str! "CO"] [(0 : ℚ), 100] [0, 1 / 1000] [[1, 1 / 2], [0, 1 / 2]] =
    .ok ([(str! "$\\bf{V^{*}}$", [(0, 1), (100, 1 / 2)]), (str! "$\\bf{CO^{*}}$", [(0, 0), (100, 1 / 2)])],
      [(str! "$\\bf{V^{*}}$", [(0, 1), (1 / 1000, 1 / 2)]), (str! "$\\bf{CO^{*}}$", [(0, 0), (1 / 1000, 1 / 2)])]) :=
  (C116_coverages [str! "V", str! "CO"] [(0 : ℚ), 100] [0, 1 / 1000] [[1, 1 / 2], [0, 1 / 2]] rfl _ _).mpr ⟨rfl, rfl, fun i sp c h1 h2 => by
    match i with
    | 0 => cases h1; cases h2; exact ⟨_, _, rfl, rfl, (drawCurve_iff _ _ _).mp rfl, (drawCurve_iff _ _ _).mp rfl⟩
    | 1 => cases h1; cases h2; exact ⟨_, _, rfl, rfl, (drawCurve_iff _ _ _).mp rfl, (drawCurve_iff _ _ _).mp rfl⟩
    | i + 2 => simp at h1⟩

/-- The hypotheses of `C116_runs_partial` hold for runs at 10 and 2. -/
example : ∃ qs cs os qs' ts fig, gatherCvgs exFloat exArgsort ([10, 2].map fun p : ℚ =>
        ⟨str! "./" ++ Nat.toDigits 10 p.num.toNat, some (exCvgFile (p / 20) (p / 100)), some (.ok (some [(str! "a", p), (str! "b", 7), (str! "c", 1)]))⟩) = .ok (qs, cs, os) ∧
      gatherTofs exFloat exArgsort ([10, 2].map fun p : ℚ =>
        ⟨str! "./" ++ Nat.toDigits 10 p.num.toNat, some (exCvgFile (p / 20) (p / 100)), some (.ok (some [(str! "a", p), (str! "b", 7), (str! "c", 1)]))⟩) = .ok (qs', ts) ∧
      seriesFigure qs' ts cs os = .ok fig ∧ ∀ x y, ((x, y) ∈ fig.co ↔ x ∈ [10, 2] ∧ y = x / 20) ∧
        ((x, y) ∈ fig.o ↔ x ∈ [10, 2] ∧ y = x / 100 + x / 100 + x / 100 + x / 100 + x / 100) ∧ ((x, y) ∈ fig.tof ↔ x ∈ [10, 2] ∧ y = x + 1) := by
  refine C116_runs_partial exFloat exArgsort exArgsort_ok (fun p : ℚ => Nat.toDigits 10 p.num.toNat) [10, 2] (by decide) (fun p => exCvgFile (p / 20) (p / 100))
    (fun p => p / 20) (fun p => p / 100 + p / 100 + p / 100 + p / 100 + p / 100) (fun p => p + 1) (fun p => [(str! "a", p), (str! "b", 7), (str! "c", 1)]) ?_ ?_
  · intro p hp
    simp only [List.mem_cons, List.not_mem_nil, or_false] at hp
    rcases hp with rfl | rfl
    · exact exCvgFile_row _ _ (str! "10") 10 (by decide +kernel) _
    · exact exCvgFile_row _ _ (str! "2") 2 (by decide +kernel) _
  · intro p hp
    simp only [List.mem_cons, List.not_mem_nil, or_false] at hp
    rcases hp with rfl | rfl <;> decide +kernel

/-! ### The theorems at these cases -/

example := (C116_limits [(4 : ℚ), 1, 10]).2 (by simp)

end Verif
