import Verif.Model.Gather
import Verif.Lemmas.Py
import Verif.Lemmas.Rxn
import Verif.Lemmas.Network
import Verif.Lemmas.Sort
import Verif.Lemmas.Dict
import Verif.Props.DataFile
import Verif.Props.PlotFrequencies
/-
C105: series of lattice runs are gathered with their own pressures.
-/
namespace Verif
open Dict

/-! ## Specification -/

/-- The places of the entries in increasing order. -/
def IsArgsort {K : Type} [LE K] (p : List K) (idx : List Nat) : Prop :=
  idx.Perm (List.range p.length) ∧ (idx.filterMap (p[·]?)).Pairwise (· ≤ ·)

/-- The types of a run and their coverages over time. -/
structure RunCvgs (K : Type) where
  types : List Str
  rows : List (List K)

/-- A file with the results of a run. -/
def HoldsCvgs {K : Type} (file : List (Stmt K)) (r : RunCvgs K) : Prop :=
  ∃ env, execFile file = .ok env ∧ get? env (str! "possible_types") = some (r.types.map .str) ∧
    get? env (str! "coverages") = some (r.rows.map .nums)

/-- The last coverage of a type. -/
def RunCvgs.Final {K : Type} (r : RunCvgs K) (name : Str) (x : K) : Prop :=
  ∃ (i : Nat) (row : List K), r.types[i]? = some name ∧ (∀ j, j < i → r.types[j]? ≠ some name) ∧ r.rows[i]? = some row ∧ row.getLast? = some x

/-- A directory whose run gave, at the pressure in its name, these last coverages of carbon monoxide and oxygen. -/
def RowFor {K : Type} [AddMonoid K] (toFloat : Str → Option K) (d : SeriesDir K) (x : K × K × K) : Prop :=
  ∃ file r t o1 o2 o3 o4 o5, d.cvgs = some file ∧ HoldsCvgs file r ∧ d.name = str! "./" ++ t ∧ toFloat t = some x.1 ∧
    r.Final (str! "C") x.2.1 ∧ r.Final (str! "O_s") o1 ∧ r.Final (str! "O_r") o2 ∧ r.Final (str! "O_u") o3 ∧
    r.Final (str! "O_d") o4 ∧ r.Final (str! "O_l") o5 ∧ x.2.2 = o1 + o2 + o3 + o4 + o5

/-! ## Lemmas -/

theorem mapM_perm {A B : Type} {f : A → Py B} {l l' : List A} (h : l.Perm l') :
    ∀ {r : List B}, l.mapM f = .ok r → ∃ r', l'.mapM f = .ok r' ∧ r.Perm r' := by
  induction h with
  | nil => intro r hr; exact ⟨r, hr, List.Perm.refl _⟩
  | cons x _ ih =>
    intro r hr
    rw [List.mapM_cons] at hr
    obtain ⟨y, hy, hr⟩ := bind_ok.mp hr
    obtain ⟨ys, hys, hr⟩ := bind_ok.mp hr
    obtain ⟨ys', h1, h2⟩ := ih hys
    cases hr
    exact ⟨y :: ys', by rw [List.mapM_cons, hy, h1]; rfl, h2.cons y⟩
  | swap x y l =>
    intro r hr
    rw [List.mapM_cons] at hr
    obtain ⟨a, ha, hr⟩ := bind_ok.mp hr
    obtain ⟨ys, hys, hr⟩ := bind_ok.mp hr
    rw [List.mapM_cons] at hys
    obtain ⟨b, hb, hys⟩ := bind_ok.mp hys
    obtain ⟨zs, hzs, hys⟩ := bind_ok.mp hys
    cases hr
    cases hys
    exact ⟨b :: a :: zs, by rw [List.mapM_cons, hb, List.mapM_cons, ha, hzs]; rfl, List.Perm.swap _ _ _⟩
  | trans _ _ ih1 ih2 =>
    intro r hr
    obtain ⟨r1, h1, p1⟩ := ih1 hr
    obtain ⟨r2, h2, p2⟩ := ih2 h1
    exact ⟨r2, h2, p1.trans p2⟩

section
variable {K : Type}

/-- The directories with a file. -/
def cvgsFiles (dirs : List (SeriesDir K)) : List (Str × List (Stmt K)) := dirs.filterMap fun d => d.cvgs.map fun f => (d.name, f)

theorem cvgsRows_eq [Zero K] [Add K] (toFloat : Str → Option K) (dirs : List (SeriesDir K)) :
    cvgsRows toFloat dirs = (cvgsFiles dirs).mapM fun x => cvgsRow toFloat x.1 x.2 := by
  induction dirs with
  | nil => rfl
  | cons d ds ih =>
    unfold cvgsRows cvgsFiles
    cases hd : d.cvgs with
    | none => simpa [hd, cvgsFiles] using ih
    | some f =>
      rw [List.filterMap_cons, hd]
      simp only [Option.map_some, List.mapM_cons]
      rw [ih]
      rfl

theorem takeAt_map {A B : Type} (f : A → B) (l : List A) (idx : List Nat) (h : ∀ i ∈ idx, i < l.length) :
    takeAt (l.map f) idx = .ok ((idx.filterMap (l[·]?)).map f) := by
  unfold takeAt
  induction idx with
  | nil => rfl
  | cons i idx ih =>
    have hi := h i (by simp)
    rw [List.mapM_cons, ih fun j hj => h j (by simp [hj])]
    simp only [List.getElem?_map, List.getElem?_eq_getElem hi, List.filterMap_cons, List.map_cons, Option.map_some]
    rfl

theorem filterMap_range {A : Type} (l : List A) : (List.range l.length).filterMap (l[·]?) = l := by
  apply List.ext_getElem?
  intro i
  have : ∀ n, n ≤ l.length → (List.range n).filterMap (l[·]?) = l.take n := by
    intro n
    induction n with
    | zero => simp
    | succ n ih =>
      intro hn
      have hn' : n < l.length := by omega
      rw [List.range_succ, List.filterMap_append, ih (by omega), List.take_add_one]
      simp [List.getElem?_eq_getElem hn']
  rw [this _ (Nat.le_refl _), List.take_length]

/-- The rows in the order of the pressures. -/
theorem gather_table {A : Type} [LinearOrder K] (key : A → K) (rows : List A) (idx : List Nat) (h : IsArgsort (rows.map key) idx) :
    ∃ table : List A, table.Perm rows ∧ (table.map key).Pairwise (· ≤ ·) ∧
      (∀ (B : Type) (f : A → B), takeAt (rows.map f) idx = .ok (table.map f)) ∧
      (rows.map key).insertionSort (· ≤ ·) = table.map key := by
  have hp : (idx.filterMap (rows[·]?)).Perm rows := by
    have := h.1.filterMap (rows[·]?)
    rw [List.length_map, filterMap_range] at this
    exact this
  have hk : (idx.filterMap (rows[·]?)).map key = idx.filterMap ((rows.map key)[·]?) := by
    rw [List.map_filterMap]
    congr 1
    funext i
    simp
  refine ⟨idx.filterMap (rows[·]?), hp, by rw [hk]; exact h.2, fun B f => takeAt_map f rows idx fun i hi => ?_, ?_⟩
  · have := h.1.subset hi
    simpa using this
  · refine List.Perm.eq_of_pairwise (le := (· ≤ ·)) (fun a b _ _ => le_antisymm) (List.pairwise_insertionSort _ _) (by rw [hk]; exact h.2) ?_
    exact (List.perm_insertionSort _ _).trans (hp.map key).symm

theorem typeIndex_ok {types : List Str} {name : Str} : ∀ {i : Nat}, types[i]? = some name → (∀ j, j < i → types[j]? ≠ some name) →
    typeIndex (K := K) name (types.map .str) = .ok i := by
  induction types with
  | nil => intro i h; simp at h
  | cons t ts ih =>
    intro i h hf
    cases i with
    | zero =>
      have : t = name := by simpa using h
      simp [typeIndex, this]
    | succ i =>
      have hne : t ≠ name := fun h => hf 0 (by omega) (by simp [h])
      have := ih (i := i) (by simpa using h) fun j hj => by
        have := hf (j + 1) (by omega)
        simpa using this
      simp only [List.map_cons, typeIndex]
      rw [if_neg hne, this]
      rfl

theorem typeIndex_missing {types : List Str} {name : Str} (h : name ∉ types) :
    typeIndex (K := K) name (types.map .str) = .error .ValueError := by
  induction types with
  | nil => rfl
  | cons t ts ih =>
    have hne : t ≠ name := fun e => h (by simp [e])
    simp only [List.map_cons, typeIndex]
    rw [if_neg hne, ih fun h' => h (by simp [h'])]
    rfl

theorem typeCoverage_ok {env : Vars K} {r : RunCvgs K} (hc : get? env (str! "coverages") = some (r.rows.map .nums)) {name : Str} {x : K}
    (h : r.Final name x) : typeCoverage env (r.types.map .str) name = .ok x := by
  obtain ⟨i, row, h1, h2, h3, h4⟩ := h
  unfold typeCoverage
  rw [typeIndex_ok h1 h2]
  show (localVar env (str! "coverages") >>= _) = _
  unfold localVar
  rw [hc]
  show (match (r.rows.map Elem.nums)[i]? with | some row => lastNumber row | none => Except.error PyErr.IndexError) = Except.ok x
  rw [List.getElem?_map, h3]
  show (match row.getLast? with | some x => Except.ok x | none => Except.error PyErr.IndexError) = Except.ok x
  rw [h4]

theorem cvgsRow_ok [AddMonoid K] {toFloat : Str → Option K} {d : SeriesDir K} {x : K × K × K} (h : RowFor toFloat d x) :
    ∃ file, d.cvgs = some file ∧ cvgsRow toFloat d.name file = .ok x := by
  obtain ⟨file, r, t, o1, o2, o3, o4, o5, hd, ⟨env, he, ht, hc⟩, hn, hp, h0, h1, h2, h3, h4, h5, hs⟩ := h
  refine ⟨file, hd, ?_⟩
  have ho : speciesCoverage env (r.types.map .str) oxygenTypes = .ok (o1 + o2 + o3 + o4 + o5) := by
    simp only [speciesCoverage, oxygenTypes, List.foldlM_cons, List.foldlM_nil, typeCoverage_ok hc h1, typeCoverage_ok hc h2,
      typeCoverage_ok hc h3, typeCoverage_ok hc h4, typeCoverage_ok hc h5]
    show Except.ok (0 + o1 + o2 + o3 + o4 + o5) = _
    rw [zero_add]
  have hco : speciesCoverage env (r.types.map .str) monoxideTypes = .ok x.2.1 := by
    simp only [speciesCoverage, monoxideTypes, List.foldlM_cons, List.foldlM_nil, typeCoverage_ok hc h0]
    show Except.ok (0 + x.2.1) = _
    rw [zero_add]
  have hpr : dirPressure toFloat d.name = .ok x.1 := by
    unfold dirPressure
    rw [hn]
    show (match toFloat t with | some p => Except.ok p | none => Except.error PyErr.ValueError) = _
    rw [hp]
  unfold cvgsRow localVar
  rw [he]
  show (do
    let types ← (match get? env (str! "possible_types") with | some l => .ok l | none => .error .KeyError)
    let o ← speciesCoverage env types oxygenTypes
    let co ← speciesCoverage env types monoxideTypes
    let p ← dirPressure toFloat d.name
    pure (p, co, o)) = Except.ok x
  rw [ht]
  show (do
    let o ← speciesCoverage env (r.types.map .str) oxygenTypes
    let co ← speciesCoverage env (r.types.map .str) monoxideTypes
    let p ← dirPressure toFloat d.name
    pure (p, co, o)) = Except.ok x
  rw [ho, hco, hpr]
  show Except.ok (x.1, x.2.1, o1 + o2 + o3 + o4 + o5) = _
  rw [← hs]

theorem cvgsRows_ok [AddMonoid K] {toFloat : Str → Option K} {dirs : List (SeriesDir K)}
    (h : ∀ d ∈ dirs, d.cvgs ≠ none → ∃ x, RowFor toFloat d x) :
    ∃ rows, cvgsRows toFloat dirs = .ok rows ∧ List.Forall₂ (RowFor toFloat) (dirs.filter (·.cvgs.isSome)) rows := by
  induction dirs with
  | nil => exact ⟨[], rfl, by simp⟩
  | cons d ds ih =>
    obtain ⟨rows, h1, h2⟩ := ih fun d hd => h d (by simp [hd])
    unfold cvgsRows
    cases hd : d.cvgs with
    | none => exact ⟨rows, h1, by simpa [hd] using h2⟩
    | some file =>
      obtain ⟨x, hx⟩ := h d (by simp) (by simp [hd])
      obtain ⟨file', hf, hr⟩ := cvgsRow_ok hx
      rw [hd] at hf
      cases hf
      refine ⟨x :: rows, ?_, ?_⟩
      · show (cvgsRow toFloat d.name file >>= _) = _
        rw [hr, h1]
        rfl
      · rw [List.filter_cons_of_pos (by simp [hd])]
        exact List.Forall₂.cons hx h2

theorem gatherCvgs_rows [Zero K] [Add K] [LinearOrder K] {toFloat : Str → Option K} {argsort : List K → List Nat} (ha : ∀ l, IsArgsort l (argsort l))
    {dirs : List (SeriesDir K)} {rows : List (K × K × K)} (h : cvgsRows toFloat dirs = .ok rows) :
    ∃ table : List (K × K × K), table.Perm rows ∧ (table.map (·.1)).Pairwise (· ≤ ·) ∧
      gatherCvgs toFloat argsort dirs = .ok (table.map (·.1), table.map (·.2.1), table.map (·.2.2)) := by
  obtain ⟨table, h1, h2, h3, h4⟩ := gather_table (fun x : K × K × K => x.1) rows (argsort (rows.map (·.1))) (ha _)
  refine ⟨table, h1, h2, ?_⟩
  unfold gatherCvgs
  rw [h]
  show (takeAt (rows.map (·.2.1)) (argsort (rows.map (·.1))) >>= _) = _
  rw [h3 _ fun x => x.2.1]
  show (takeAt (rows.map (·.2.2)) (argsort (rows.map (·.1))) >>= _) = _
  rw [h3 _ fun x => x.2.2]
  show Except.ok ((rows.map (·.1)).insertionSort (· ≤ ·), _, _) = _
  rw [h4]

end

/-! ## Theorems -/

section
variable {K : Type}

/-- C105: the arrays that are written hold, for every directory with a file, its own pressure next to the last coverages of
its own run, and the pressures increase. Missing: files that the program itself writes (`C105_own_files_refuted`), runs
without one of the types (`C105_types_refuted`) and other directories with such a file (`C105_nested_refuted`). -/
theorem C105_coverages_partial [AddMonoid K] [LinearOrder K] (toFloat : Str → Option K) (argsort : List K → List Nat)
    (ha : ∀ l, IsArgsort l (argsort l)) (dirs : List (SeriesDir K)) (h : ∀ d ∈ dirs, d.cvgs ≠ none → ∃ x, RowFor toFloat d x) :
    ∃ table rows : List (K × K × K),
      gatherCvgs toFloat argsort dirs = .ok (table.map (·.1), table.map (·.2.1), table.map (·.2.2)) ∧
      (table.map (·.1)).Pairwise (· ≤ ·) ∧ table.Perm rows ∧
      List.Forall₂ (RowFor toFloat) (dirs.filter (·.cvgs.isSome)) rows := by
  obtain ⟨rows, h1, h2⟩ := cvgsRows_ok h
  obtain ⟨table, h3, h4, h5⟩ := gatherCvgs_rows ha h1
  exact ⟨table, rows, h5, h4, h3, h2⟩

/-- C105: the series made for a list of different pressures gives every pressure once, in increasing order, with the
coverages of the run at this pressure. -/
theorem C105_series_partial [AddMonoid K] [LinearOrder K] (toFloat : Str → Option K) (argsort : List K → List Nat)
    (ha : ∀ l, IsArgsort l (argsort l)) (text : K → Str) (ps : List K) (file : K → List (Stmt K)) (co o : K → K)
    (freq : K → Option (Py (Option (Dict Str K))))
    (h : ∀ p ∈ ps, RowFor toFloat ⟨str! "./" ++ text p, some (file p), freq p⟩ (p, co p, o p)) :
    ∃ qs : List K, qs.Perm ps ∧ qs.Pairwise (· ≤ ·) ∧
      gatherCvgs toFloat argsort (ps.map fun p => ⟨str! "./" ++ text p, some (file p), freq p⟩) = .ok (qs, qs.map co, qs.map o) := by
  have hr : cvgsRows toFloat (ps.map fun p => (⟨str! "./" ++ text p, some (file p), freq p⟩ : SeriesDir K)) =
      .ok (ps.map fun p => (p, co p, o p)) := by
    rw [cvgsRows_eq]
    have : cvgsFiles (ps.map fun p => (⟨str! "./" ++ text p, some (file p), freq p⟩ : SeriesDir K)) =
        ps.map fun p => (str! "./" ++ text p, file p) := by
      unfold cvgsFiles
      rw [List.filterMap_map, ← List.filterMap_eq_map]
      rfl
    rw [this, List.mapM_map]
    apply mapM_ok
    intro p hp
    obtain ⟨f, hf, hr⟩ := cvgsRow_ok (h p hp)
    cases hf
    exact hr
  obtain ⟨table, h1, h2, h3⟩ := gatherCvgs_rows ha hr
  refine ⟨table.map (·.1), ?_, h2, ?_⟩
  · have := h1.map (·.1)
    rw [List.map_map] at this
    have e : ((fun x : K × K × K => x.1) ∘ fun p => (p, co p, o p)) = id := rfl
    rw [e, List.map_id] at this
    exact this
  · rw [h3, List.map_map, List.map_map]
    have hmem : ∀ x ∈ table, x.2.1 = co x.1 ∧ x.2.2 = o x.1 := by
      intro x hx
      obtain ⟨p, -, rfl⟩ := List.mem_map.mp (h1.subset hx)
      exact ⟨rfl, rfl⟩
    rw [List.map_congr_left (g := (co ∘ fun x : K × K × K => x.1)) fun x hx => (hmem x hx).1,
      List.map_congr_left (l := table) (g := (o ∘ fun x : K × K × K => x.1)) fun x hx => (hmem x hx).2]

/-- C105: the order in which the directories are found does not matter when the pressures are different. -/
theorem C105_order [Zero K] [Add K] [LinearOrder K] (toFloat : Str → Option K) (argsort argsort' : List K → List Nat)
    (ha : ∀ l, IsArgsort l (argsort l)) (ha' : ∀ l, IsArgsort l (argsort' l)) (dirs dirs' : List (SeriesDir K)) (hp : dirs.Perm dirs')
    (out : List K × List K × List K) (h : gatherCvgs toFloat argsort dirs = .ok out) (hd : out.1.Nodup) :
    gatherCvgs toFloat argsort' dirs' = .ok out := by
  obtain ⟨rows, h1, -⟩ := bind_ok.mp h
  obtain ⟨table, t1, t2, t3⟩ := gatherCvgs_rows ha h1
  have hm := h1
  rw [cvgsRows_eq] at hm
  obtain ⟨rows', m1, m2⟩ := mapM_perm (hp.filterMap _ : (cvgsFiles dirs).Perm (cvgsFiles dirs')) hm
  have m1' : cvgsRows toFloat dirs' = .ok rows' := by rw [cvgsRows_eq]; exact m1
  obtain ⟨table', t1', t2', t3'⟩ := gatherCvgs_rows ha' m1'
  rw [t3] at h
  cases h
  have hpt : table.Perm table' := t1.trans (m2.trans t1'.symm)
  have hinj : ∀ a ∈ table, ∀ b ∈ table, a.1 = b.1 → a = b := fun a ha b hb e => List.inj_on_of_nodup_map hd ha hb e
  have : table = table' := by
    refine List.Perm.eq_of_pairwise (le := fun a b => a.1 ≤ b.1) (fun a b ha hb h1 h2 => ?_) (List.pairwise_map.mp t2) (List.pairwise_map.mp t2') hpt
    exact hinj a ha b (hpt.symm.subset hb) (le_antisymm h1 h2)
  rw [t3', ← this]

/-- One directory that cannot be read leaves no arrays. -/
theorem gather_fails [Zero K] [Add K] [LinearOrder K] {toFloat : Str → Option K} {argsort : List K → List Nat}
    {dirs : List (SeriesDir K)} {d : SeriesDir K} (hd : d ∈ dirs) {file : List (Stmt K)} (hf : d.cvgs = some file)
    (hr : ∀ x, cvgsRow toFloat d.name file ≠ .ok x) : ∃ e, gatherCvgs toFloat argsort dirs = .error e := by
  cases h : gatherCvgs toFloat argsort dirs with
  | error e => exact ⟨e, rfl⟩
  | ok out =>
    obtain ⟨rows, h1, -⟩ := bind_ok.mp h
    rw [cvgsRows_eq] at h1
    have : (d.name, file) ∈ cvgsFiles dirs := List.mem_filterMap.mpr ⟨d, hd, by rw [hf]; rfl⟩
    obtain ⟨x, -, hx⟩ := (mapM_ok_mem h1).2 _ this
    exact absurd hx (hr x)

/-- C105 fails when a run does not have one of the six types that are written in the script: nothing is gathered. -/
theorem C105_types_refuted [Zero K] [Add K] [LinearOrder K] (toFloat : Str → Option K) (argsort : List K → List Nat) (dirs : List (SeriesDir K))
    (d : SeriesDir K) (hd : d ∈ dirs) (file : List (Stmt K)) (hf : d.cvgs = some file) (r : RunCvgs K) (hr : HoldsCvgs file r) (name : Str)
    (hn : name ∈ [str! "C", str! "O_s", str! "O_r", str! "O_u", str! "O_d", str! "O_l"]) (hm : name ∉ r.types) :
    ∃ e, gatherCvgs toFloat argsort dirs = .error e := by
  refine gather_fails hd hf fun x hx => ?_
  obtain ⟨env, he, ht, -⟩ := hr
  have fails : ∀ s : List Str, name ∈ s → ∀ (a y : K),
      s.foldlM (fun s n => do pure (s + (← typeCoverage env (r.types.map .str) n))) a ≠ (Except.ok y : Py K) := by
    intro s
    induction s with
    | nil => intro h; simp at h
    | cons n s ih =>
      intro h a y hy
      rw [List.foldlM_cons] at hy
      obtain ⟨b, h1, h2⟩ := bind_ok.mp hy
      obtain ⟨c, h3, -⟩ := bind_ok.mp h1
      rcases List.mem_cons.mp h with rfl | h
      · unfold typeCoverage at h3
        rw [typeIndex_missing hm] at h3
        exact nomatch h3
      · exact ih h b y h2
  unfold cvgsRow at hx
  obtain ⟨env', h0, hx⟩ := bind_ok.mp hx
  rw [he] at h0
  cases h0
  obtain ⟨types, h0, hx⟩ := bind_ok.mp hx
  unfold localVar at h0
  rw [ht] at h0
  cases h0
  obtain ⟨o, h1, hx⟩ := bind_ok.mp hx
  obtain ⟨co, h2, hx⟩ := bind_ok.mp hx
  simp only [List.mem_cons, List.not_mem_nil, or_false] at hn
  rcases hn with rfl | hn
  · exact fails monoxideTypes (by simp [monoxideTypes]) 0 co h2
  · exact fails oxygenTypes (by simpa [oxygenTypes] using hn) 0 o h1

/-- C105 fails for the files that the analysis of coverages writes: with carbon monoxide among the types no such file can be
executed. -/
theorem C105_own_files_refuted [Zero K] [Add K] [LinearOrder K] (toFloat : Str → Option K) (argsort : List K → List Nat)
    (dirs : List (SeriesDir K)) (d : SeriesDir K) (hd : d ∈ dirs) (possible : List Str) (hC : str! "C" ∈ possible) (n bufferSize : Nat)
    (first : CovRec K) (rest : List (CovRec K)) (hf : d.cvgs = some (covFile (covHeader possible) n bufferSize first rest)) :
    ∃ e, gatherCvgs toFloat argsort dirs = .error e := by
  refine gather_fails hd hf fun x hx => ?_
  unfold cvgsRow at hx
  rw [C57_coverages_refuted possible n bufferSize first rest hC (by decide) (by decide)] at hx
  exact nomatch hx

/-- C105 fails when a directory that is not named by a pressure, such as one inside another, has a file of coverages. -/
theorem C105_nested_refuted [Zero K] [Add K] [LinearOrder K] (toFloat : Str → Option K) (argsort : List K → List Nat)
    (dirs : List (SeriesDir K)) (d : SeriesDir K) (hd : d ∈ dirs) (file : List (Stmt K)) (hf : d.cvgs = some file)
    (hn : toFloat (d.name.drop 2) = none) : ∃ e, gatherCvgs toFloat argsort dirs = .error e := by
  refine gather_fails hd hf fun x hx => ?_
  unfold cvgsRow dirPressure at hx
  obtain ⟨_, -, hx⟩ := bind_ok.mp hx
  obtain ⟨_, -, hx⟩ := bind_ok.mp hx
  obtain ⟨_, -, hx⟩ := bind_ok.mp hx
  obtain ⟨_, -, hx⟩ := bind_ok.mp hx
  rw [hn] at hx
  exact nomatch hx

end

/-! ### Examples -/

/-- The pressure written as decimal digits. -/
def exFloat (s : Str) : Option ℚ := if s.all isDigit ∧ s ≠ [] then some (intOf s : ℚ) else none

/-- Places sorted by inserting them one after the other. -/
def exArgsort (p : List ℚ) : List Nat := ((List.range p.length).insertionSort fun i j => (p[i]?).getD 0 ≤ (p[j]?).getD 0)

theorem exArgsort_ok (p : List ℚ) : IsArgsort p (exArgsort p) := by
  refine ⟨List.perm_insertionSort _ _, ?_⟩
  rw [List.pairwise_filterMap]
  have hs : (exArgsort p).Pairwise fun i j => (p[i]?).getD 0 ≤ (p[j]?).getD 0 := by
    have : Std.Total fun i j : Nat => (p[i]?).getD 0 ≤ (p[j]?).getD 0 := ⟨fun i j => le_total _ _⟩
    have : IsTrans Nat fun i j => (p[i]?).getD 0 ≤ (p[j]?).getD 0 := ⟨fun i j k => le_trans⟩
    exact List.pairwise_insertionSort _ _
  refine hs.imp fun {i j} h a ha b hb => ?_
  rw [ha, hb] at h
  exact h

/-- A file with one recording: half the sites covered with carbon monoxide, oxygen in five orientations. -/
def exCvgFile (co o : ℚ) : List (Stmt ℚ) :=
  [.assign (str! "possible_types") [.str (str! "C"), .str (str! "O_s"), .str (str! "O_r"), .str (str! "O_u"), .str (str! "O_d"), .str (str! "O_l")],
   .assign (str! "coverages") [.nums [0, co], .nums [0, o], .nums [0, o], .nums [0, o], .nums [0, o], .nums [0, o]]]

theorem exCvgFile_row (co o : ℚ) (t : Str) (p : ℚ) (h : exFloat t = some p) (fr : Option (Py (Option (Dict Str ℚ)))) :
    RowFor exFloat ⟨str! "./" ++ t, some (exCvgFile co o), fr⟩ (p, co, o + o + o + o + o) := by
  refine ⟨exCvgFile co o, ⟨[str! "C", str! "O_s", str! "O_r", str! "O_u", str! "O_d", str! "O_l"], [[0, co], [0, o], [0, o], [0, o], [0, o], [0, o]]⟩,
    t, o, o, o, o, o, rfl, ⟨_, rfl, rfl, rfl⟩, rfl, h, ?_, ?_, ?_, ?_, ?_, ?_, rfl⟩
  · exact ⟨0, [0, co], rfl, by show ∀ j < 0, [str! "C", str! "O_s", str! "O_r", str! "O_u", str! "O_d", str! "O_l"][j]? ≠ some _; decide, rfl, rfl⟩
  · exact ⟨1, [0, o], rfl, by show ∀ j < 1, [str! "C", str! "O_s", str! "O_r", str! "O_u", str! "O_d", str! "O_l"][j]? ≠ some _; decide, rfl, rfl⟩
  · exact ⟨2, [0, o], rfl, by show ∀ j < 2, [str! "C", str! "O_s", str! "O_r", str! "O_u", str! "O_d", str! "O_l"][j]? ≠ some _; decide, rfl, rfl⟩
  · exact ⟨3, [0, o], rfl, by show ∀ j < 3, [str! "C", str! "O_s", str! "O_r", str! "O_u", str! "O_d", str! "O_l"][j]? ≠ some _; decide, rfl, rfl⟩
  · exact ⟨4, [0, o], rfl, by show ∀ j < 4, [str! "C", str! "O_s", str! "O_r", str! "O_u", str! "O_d", str! "O_l"][j]? ≠ some _; decide, rfl, rfl⟩
  · exact ⟨5, [0, o], rfl, by show ∀ j < 5, [str! "C", str! "O_s", str! "O_r", str! "O_u", str! "O_d", str! "O_l"][j]? ≠ some _; decide, rfl, rfl⟩

/-- Three directories, one without a file, found in the order of their texts. -/
def exSeries : List (SeriesDir ℚ) :=
  [⟨str! "./10", some (exCvgFile (1 / 2) (1 / 20)), none⟩, ⟨str! "./15", none, none⟩, ⟨str! "./2", some (exCvgFile (1 / 4) (1 / 10)), none⟩]

-- The hypotheses of `C105_coverages_partial` hold, and the pressures are put in order.
example : (∀ d ∈ exSeries, d.cvgs ≠ none → ∃ x, RowFor exFloat d x) ∧
    gatherCvgs exFloat exArgsort exSeries = .ok ([2, 10], [1 / 4, 1 / 2], [1 / 2, 1 / 4]) := by
  refine ⟨?_, by decide +kernel⟩
  intro d hd hne
  simp only [exSeries, List.mem_cons, List.not_mem_nil, or_false] at hd
  rcases hd with rfl | rfl | rfl
  · exact ⟨_, exCvgFile_row _ _ (str! "10") 10 (by decide +kernel) _⟩
  · exact absurd rfl hne
  · exact ⟨_, exCvgFile_row _ _ (str! "2") 2 (by decide +kernel) _⟩

-- `C105_series_partial` for the pressures 10 and 2.
example : ∃ qs : List ℚ, qs.Perm [10, 2] ∧ qs.Pairwise (· ≤ ·) ∧ gatherCvgs exFloat exArgsort
    ([10, 2].map fun p => ⟨str! "./" ++ Nat.toDigits 10 p.num.toNat, some (exCvgFile (p / 20) (p / 100)), none⟩) =
      .ok (qs, qs.map fun p => p / 20, qs.map fun p => p / 100 + p / 100 + p / 100 + p / 100 + p / 100) := by
  refine C105_series_partial exFloat exArgsort exArgsort_ok (fun p : ℚ => Nat.toDigits 10 p.num.toNat) [10, 2] (fun p => exCvgFile (p / 20) (p / 100))
    (fun p => p / 20) (fun p => p / 100 + p / 100 + p / 100 + p / 100 + p / 100) (fun _ => none) ?_
  intro p hp
  simp only [List.mem_cons, List.not_mem_nil, or_false] at hp
  rcases hp with rfl | rfl
  · exact exCvgFile_row _ _ (str! "10") 10 (by decide +kernel) _
  · exact exCvgFile_row _ _ (str! "2") 2 (by decide +kernel) _

-- `C105_order`: the directories found the other way round.
example : gatherCvgs exFloat exArgsort exSeries.reverse = .ok ([2, 10], [1 / 4, 1 / 2], [1 / 2, 1 / 4]) :=
  C105_order exFloat exArgsort exArgsort exArgsort_ok exArgsort_ok exSeries exSeries.reverse exSeries.reverse_perm.symm _
    (by decide +kernel) (by decide +kernel)

-- `C105_types_refuted`: a run of a model with one type of oxygen.
example : ∃ e, gatherCvgs exFloat exArgsort (⟨str! "./1", some [.assign (str! "possible_types") [.str (str! "C"), .str (str! "O_s")],
    .assign (str! "coverages") [.nums [1 / 2], .nums [1 / 4]]], none⟩ :: exSeries) = .error e :=
  C105_types_refuted exFloat exArgsort _ _ List.mem_cons_self _ rfl ⟨[str! "C", str! "O_s"], [[1 / 2], [1 / 4]]⟩ ⟨_, rfl, rfl, rfl⟩
    (str! "O_r") (by decide) (by decide)

-- `C105_own_files_refuted`: a recorded run.
example : ∃ e, gatherCvgs exFloat exArgsort (⟨str! "./1", some (covFile (covHeader [str! "C", str! "V"]) 2 10 ⟨0, 0, [0, 1]⟩ []), none⟩ :: exSeries) =
    .error e :=
  C105_own_files_refuted exFloat exArgsort _ _ List.mem_cons_self [str! "C", str! "V"] (by decide) 2 10 ⟨0, 0, [0, 1]⟩ [] rfl

-- `C105_nested_refuted`: results kept in another directory.
example : ∃ e, gatherCvgs exFloat exArgsort (⟨str! "./old/1", some (exCvgFile 0 0), none⟩ :: exSeries) = .error e :=
  C105_nested_refuted exFloat exArgsort _ _ List.mem_cons_self _ rfl (by decide +kernel)

/-- C105: with two directories for one pressure the order of their coverages is not determined by the pressures. -/
theorem C105_ties_refuted : ∃ (argsort argsort' : List ℚ → List Nat) (dirs : List (SeriesDir ℚ)), (∀ l, IsArgsort l (argsort l)) ∧
    (∀ l, IsArgsort l (argsort' l)) ∧ gatherCvgs exFloat argsort dirs = .ok ([1, 1], [1 / 2, 1 / 4], [0, 0]) ∧
    gatherCvgs exFloat argsort' dirs = .ok ([1, 1], [1 / 4, 1 / 2], [0, 0]) := by
  refine ⟨exArgsort, fun l => if l = [1, 1] then [1, 0] else exArgsort l,
    [⟨str! "./1", some (exCvgFile (1 / 2) 0), none⟩, ⟨str! "./01", some (exCvgFile (1 / 4) 0), none⟩], exArgsort_ok, fun l => ?_,
    by decide +kernel, by decide +kernel⟩
  by_cases h : l = [1, 1]
  · subst h
    dsimp only
    rw [if_pos rfl]
    exact ⟨by decide, by decide +kernel⟩
  · dsimp only
    rw [if_neg h]
    exact exArgsort_ok l

/-! ## Turnover frequencies -/

section
variable {K : Type}

/-- A directory with the rates of the reactions: the first and the third reaction in the order of their labels are added. -/
def TofFor [Add K] (toFloat : Str → Option K) (d : SeriesDir K) (x : K × K) : Prop :=
  ∃ (rates : Dict Str K) (order : List Str) (t r0 r2 : Str) (a b : K), d.freq = some (.ok (some rates)) ∧ d.name = str! "./" ++ t ∧ toFloat t = some x.1 ∧
    order.Pairwise Before ∧ (∀ k, k ∈ order ↔ k ∈ keys rates) ∧ order[0]? = some r0 ∧ order[2]? = some r2 ∧
    (r0, a) ∈ rates ∧ (r2, b) ∈ rates ∧ (keys rates).Nodup ∧ x.2 = a + b

/-- A directory with rates. -/
def hasRates (d : SeriesDir K) : Bool := match d.freq with
  | some (.ok (some _)) => true
  | _ => false

theorem sortedSet_unique {l order : List Str} (h1 : order.Pairwise Before) (h2 : ∀ k, k ∈ order ↔ k ∈ l) : sortedSet l = order := by
  have hs := sorted_sortedSet l
  have hirr : ∀ a, ¬ Before a a := fun a h => by
    have := (strLt_iff_before a a).mpr h
    rw [strLt_irrefl] at this
    cases this
  have htr : ∀ a b c, Before a b → Before b c → Before a c := fun a b c h1 h2 =>
    (strLt_iff_before a c).mp (strLt_trans ((strLt_iff_before a b).mpr h1) ((strLt_iff_before b c).mpr h2))
  have hs' : (sortedSet l).Pairwise Before := hs.imp fun h => (strLt_iff_before _ _).mp h
  have nd : ∀ {m : List Str}, m.Pairwise Before → m.Nodup := fun h => h.imp fun {a b} hab e => by
    subst e
    exact hirr a hab
  refine List.Perm.eq_of_pairwise (le := Before) (fun a b _ _ h1 h2 => absurd (htr a b a h1 h2) (hirr a)) hs' h1 ?_
  rw [List.perm_ext_iff_of_nodup (nd hs') (nd h1)]
  intro a
  rw [mem_sortedSet, h2]

theorem rateSum_two [AddMonoid K] {rates : Dict Str K} {order : List Str} (h1 : order.Pairwise Before) (h2 : ∀ k, k ∈ order ↔ k ∈ keys rates)
    (hk : (keys rates).Nodup) {i j : Nat} {r s : Str} {a b : K} (hi : order[i]? = some r) (hj : order[j]? = some s) (ha : (r, a) ∈ rates)
    (hb : (s, b) ∈ rates) : rateSum [i, j] rates = .ok (a + b) := by
  unfold rateSum
  rw [sortedSet_unique h1 h2]
  have ga := get?_of_mem hk ha
  have gb := get?_of_mem hk hb
  simp only [List.foldlM_cons, List.foldlM_nil, hi, hj, ga, gb]
  show Except.ok (0 + a + b) = _
  rw [zero_add]

/-- C105: the frequencies that are written stand next to the pressure of their own directory. Missing: that what is added is
the turnover (`C105_net_refuted`, `C105_one_reaction_refuted`). -/
theorem C105_tofs_partial [AddMonoid K] [LinearOrder K] (toFloat : Str → Option K) (argsort : List K → List Nat)
    (ha : ∀ l, IsArgsort l (argsort l)) (dirs : List (SeriesDir K)) (hok : ∀ d ∈ dirs, ∀ e, d.freq ≠ some (.error e))
    (h : ∀ d ∈ dirs, hasRates d = true → ∃ x, TofFor toFloat d x) :
    ∃ table rows : List (K × K), gatherTofs toFloat argsort dirs = .ok (table.map (·.1), table.map (·.2)) ∧
      (table.map (·.1)).Pairwise (· ≤ ·) ∧ table.Perm rows ∧ List.Forall₂ (TofFor toFloat) (dirs.filter hasRates) rows := by
  have hrows : ∃ rows, tofRows toFloat dirs = .ok rows ∧ List.Forall₂ (TofFor toFloat) (dirs.filter hasRates) rows := by
    induction dirs with
    | nil => exact ⟨[], rfl, by simp⟩
    | cons d ds ih =>
      obtain ⟨rows, h1, h2⟩ := ih (fun d hd => hok d (by simp [hd])) fun d hd => h d (by simp [hd])
      unfold tofRows
      cases hd : d.freq with
      | none => exact ⟨rows, h1, by rw [List.filter_cons_of_neg (by simp [hasRates, hd])]; exact h2⟩
      | some f =>
        cases f with
        | error e => exact absurd hd (hok d (by simp) e)
        | ok v =>
          cases v with
          | none => exact ⟨rows, h1, by rw [List.filter_cons_of_neg (by simp [hasRates, hd])]; exact h2⟩
          | some rates =>
            have hr : hasRates d = true := by simp [hasRates, hd]
            obtain ⟨x, hx⟩ := h d (by simp) hr
            refine ⟨x :: rows, ?_, by rw [List.filter_cons_of_pos hr]; exact List.Forall₂.cons hx h2⟩
            obtain ⟨rates', order, t, r0, r2, a, b, e1, e2, e3, e4, e5, e6, e7, e8, e9, e10, e11⟩ := hx
            rw [hd] at e1
            cases e1
            show (rateSum [0, 2] rates >>= _) = _
            rw [rateSum_two e4 e5 e10 e6 e7 e8 e9]
            show (dirPressure toFloat d.name >>= _) = _
            have hp : dirPressure toFloat d.name = .ok x.1 := by
              unfold dirPressure
              rw [e2]
              show (match toFloat t with | some p => Except.ok p | none => Except.error PyErr.ValueError) = _
              rw [e3]
            rw [hp, h1]
            show Except.ok ((x.1, a + b) :: rows) = _
            rw [← e11]
  obtain ⟨rows, h1, h2⟩ := hrows
  obtain ⟨table, t1, t2, t3, t4⟩ := gather_table (fun x : K × K => x.1) rows (argsort (rows.map (·.1))) (ha _)
  refine ⟨table, rows, ?_, t2, t1, h2⟩
  unfold gatherTofs
  rw [h1]
  show (takeAt (rows.map (·.2)) (argsort (rows.map (·.1))) >>= _) = _
  rw [t3 _ fun x => x.2]
  show Except.ok ((rows.map (·.1)).insertionSort (· ≤ ·), _) = _
  rw [t4]

/-- C105: for reversible reactions the rates forwards of the first two reactions are added; whether these reactions make a
product does not matter. -/
theorem C105_forward_partial [AddMonoid K] (A B : Str) (rxns : List Str) (hm : ∀ b ∈ A :: B :: rxns, '(' ∉ b)
    (hs : (A :: B :: rxns).Pairwise fun a b => Before (a ++ ['(']) (b ++ ['('])) (rates : Dict Str K) (hk : (keys rates).Nodup)
    (hall : ∀ k, k ∈ keys rates ↔ ∃ b ∈ A :: B :: rxns, k = forwardLabel b ∨ k = reverseLabel b) (fa fb : K)
    (ha : (forwardLabel A, fa) ∈ rates) (hb : (forwardLabel B, fb) ∈ rates) : rateSum [0, 2] rates = .ok (fa + fb) :=
  rateSum_two (order := pairLabels (A :: B :: rxns)) ((sorted_pairLabels hm hs).imp fun h => (strLt_iff_before _ _).mp h)
    (fun k => by rw [mem_pairLabels, hall]) hk rfl rfl ha hb

end

/-- C105: the rates backwards are not taken off: for reactions in equilibrium the frequency is not zero. -/
theorem C105_net_refuted : rateSum [0, 2] [(str! "CO_s + O_s -> CO2_g + 2*_s(->)", (3 : ℚ)), (str! "CO_s + O_s -> CO2_g + 2*_s(<-)", 3),
    (str! "O2_g + 2*_s -> 2O_s(->)", 5), (str! "O2_g + 2*_s -> 2O_s(<-)", 5)] = .ok 8 := by
  decide +kernel

/-- C105: with one reversible reaction nothing is gathered, in any series with such a directory. -/
theorem C105_one_reaction_refuted {K : Type} [Zero K] [Add K] [LinearOrder K] (toFloat : Str → Option K) (argsort : List K → List Nat) (dirs : List (SeriesDir K))
    (d : SeriesDir K) (hd : d ∈ dirs) (rates : Dict Str K) (hr : d.freq = some (.ok (some rates))) (hl : rates.length ≤ 2) :
    ∃ e, gatherTofs toFloat argsort dirs = .error e := by
  cases h : gatherTofs toFloat argsort dirs with
  | error e => exact ⟨e, rfl⟩
  | ok out =>
    exfalso
    obtain ⟨rows, h1, -⟩ := bind_ok.mp h
    have hs : (sortedSet (keys rates)).length ≤ 2 := by
      have hnd : (sortedSet (keys rates)).Nodup := (sorted_sortedSet _).imp fun {a b} hab e => by
        subst e
        rw [strLt_irrefl] at hab
        cases hab
      have : (sortedSet (keys rates)).length ≤ (keys rates).length := (hnd.subperm fun x hx => mem_sortedSet.mp hx).length_le
      have h2 : (keys rates).length = rates.length := by simp [keys]
      omega
    have hf : ∀ x, rateSum [0, 2] rates ≠ .ok x := by
      intro x hx
      unfold rateSum at hx
      rw [List.foldlM_cons] at hx
      obtain ⟨y, -, hx⟩ := bind_ok.mp hx
      rw [List.foldlM_cons] at hx
      obtain ⟨z, hz, -⟩ := bind_ok.mp hx
      rw [List.getElem?_eq_none (by omega)] at hz
      exact nomatch hz
    clear h
    induction dirs generalizing rows with
    | nil => simp at hd
    | cons c cs ih =>
      unfold tofRows at h1
      rcases List.mem_cons.mp hd with rfl | hd
      · rw [hr] at h1
        obtain ⟨t, ht, -⟩ := bind_ok.mp h1
        exact hf t ht
      · split at h1
        · exact ih hd rows h1
        · exact nomatch h1
        · exact ih hd rows h1
        · obtain ⟨t, -, h1⟩ := bind_ok.mp h1
          obtain ⟨p, -, h1⟩ := bind_ok.mp h1
          obtain ⟨rs, h1, -⟩ := bind_ok.mp h1
          exact ih hd rs h1

/-- The rates of two reversible reactions. -/
def exTwoRates (f : ℚ) : Dict Str ℚ := [(str! "O2_g + 2*_s -> 2O_s(->)", 5), (str! "O2_g + 2*_s -> 2O_s(<-)", 4),
  (str! "CO_s + O_s -> CO2_g + 2*_s(->)", f), (str! "CO_s + O_s -> CO2_g + 2*_s(<-)", 1)]

-- `C105_forward_partial` for the two reactions.
example : rateSum [0, 2] (exTwoRates 3) = .ok (3 + 5) :=
  C105_forward_partial (str! "CO_s + O_s -> CO2_g + 2*_s") (str! "O2_g + 2*_s -> 2O_s") [] (by decide)
    (List.pairwise_cons.mpr ⟨fun b hb => by
      rw [List.mem_singleton.mp hb]
      exact Or.inr ⟨[], 'C', 'O', _, _, rfl, rfl, by decide⟩, List.pairwise_singleton _ _⟩) (exTwoRates 3) (by decide)
    (fun k => by simp [exTwoRates, keys, forwardLabel, reverseLabel]; tauto) 3 5 (by simp [exTwoRates, forwardLabel]) (by simp [exTwoRates, forwardLabel])

-- The hypotheses of `C105_tofs_partial`, with a directory whose run has not finished.
example : (∀ d ∈ [(⟨str! "./10", none, some (.ok (some (exTwoRates 3)))⟩ : SeriesDir ℚ), ⟨str! "./2", none, some (.ok (some (exTwoRates 7)))⟩,
      ⟨str! "./5", none, some (.ok none)⟩], hasRates d = true → ∃ x, TofFor exFloat d x) ∧
    gatherTofs exFloat exArgsort [⟨str! "./10", none, some (.ok (some (exTwoRates 3)))⟩, ⟨str! "./2", none, some (.ok (some (exTwoRates 7)))⟩,
      ⟨str! "./5", none, some (.ok none)⟩] = .ok ([2, 10], [12, 8]) := by
  refine ⟨?_, by decide +kernel⟩
  have one : ∀ (t : Str) (p f : ℚ), exFloat t = some p →
      TofFor exFloat ⟨str! "./" ++ t, none, some (.ok (some (exTwoRates f)))⟩ (p, f + 5) := by
    intro t p f ht
    refine ⟨exTwoRates f, sortedSet (keys (exTwoRates f)), t, str! "CO_s + O_s -> CO2_g + 2*_s(->)", str! "O2_g + 2*_s -> 2O_s(->)", f, 5, rfl, rfl, ht,
      (sorted_sortedSet _).imp fun h => (strLt_iff_before _ _).mp h, fun k => mem_sortedSet, ?_, ?_, by simp [exTwoRates], by simp [exTwoRates], ?_, rfl⟩
    · show (sortedSet (keys (exTwoRates 0)))[0]? = _
      decide +kernel
    · show (sortedSet (keys (exTwoRates 0)))[2]? = _
      decide +kernel
    · show (keys (exTwoRates 0)).Nodup
      decide
  intro d hd hr
  simp only [List.mem_cons, List.not_mem_nil, or_false] at hd
  rcases hd with rfl | rfl | rfl
  · exact ⟨_, one (str! "10") 10 3 (by decide +kernel)⟩
  · exact ⟨_, one (str! "2") 2 7 (by decide +kernel)⟩
  · exact absurd hr (by decide)

-- `C105_one_reaction_refuted`: a model with one reversible reaction.
example : ∃ e, gatherTofs exFloat exArgsort [⟨str! "./10", none, some (.ok (some (exTwoRates 3)))⟩,
    ⟨str! "./2", none, some (.ok (some [(str! "A_g + *_s -> A_s(->)", 1), (str! "A_g + *_s -> A_s(<-)", 2)]))⟩] = .error e :=
  C105_one_reaction_refuted exFloat exArgsort _ _ (List.mem_cons_of_mem _ List.mem_cons_self) _ rfl (by decide)

end Verif
