import Verif.Props.Gather
/-
C106: maps over two pressures are gathered from the directories of the runs.
-/
namespace Verif
open Dict

/-! ## Lemmas -/

theorem lastPart_absent {c : Char} {sep : Str} : ∀ (t acc : Str), c ∉ t → lastPart (c :: sep) acc t = acc := by
  intro t
  induction t with
  | nil => intro acc _; unfold lastPart; rfl
  | cons d t ih =>
    intro acc h
    unfold lastPart
    rw [if_neg]
    · exact ih acc fun h' => h (by simp [h'])
    · rintro ⟨-, hp⟩
      have := (List.cons_prefix_cons.mp hp).1
      exact h (by simp [this])

theorem lastPart_prefix {c : Char} {sep t : Str} (h : c ∉ t) (acc : Str) : lastPart (c :: sep) acc (c :: sep ++ t) = t := by
  rw [List.cons_append]
  unfold lastPart
  rw [if_pos ⟨by simp, by simp⟩]
  have : List.drop (c :: sep).length (c :: (sep ++ t)) = t := by simp
  rw [this]
  exact lastPart_absent t t h

section
variable {K A : Type}

theorem namePressure_ok {toFloat : Str → Option K} {c : Char} {sep t : Str} {p : K} (h : c ∉ t) (hp : toFloat t = some p) :
    namePressure toFloat (c :: sep) (c :: sep ++ t) = .ok p := by
  unfold namePressure
  rw [lastPart_prefix h, hp]

/-! ## Theorems -/

/-- C106: when the directories of all pressures of oxygen hold runs at the same pressures of carbon monoxide, every value of the
map stands in the row and the column of its own pressures. Other files do not matter. Missing: directories with runs at other
pressures (`C106_columns_refuted`) and the order of the pressures (`C106_order_refuted`). -/
theorem C106_map_partial (toFloat : Str → Option K) (value : A → Py K) (text : K → Str) (qs cs : List K) (hq : qs ≠ [])
    (ht : ∀ p ∈ qs ++ cs, toFloat (text p) = some p ∧ 'p' ∉ text p) (run : K → K → A) (v : K → K → K)
    (hv : ∀ q ∈ qs, ∀ c ∈ cs, value (run q c) = .ok (v q c)) (inner : K → List (Str × A)) (listing : List (Str × List (Str × A)))
    (hl : listing.filter (fun x => decide (str! "pO2-" <+: x.1)) = qs.map fun q => (str! "pO2-" ++ text q, inner q))
    (hi : ∀ q ∈ qs, (inner q).filter (fun x => decide (str! "pCO-" <+: x.1)) = cs.map fun c => (str! "pCO-" ++ text c, run q c)) :
    gatherMap toFloat value listing = .ok (cs, qs, qs.map fun q => cs.map fun c => v q c) := by
  have row : ∀ q ∈ qs, mapRow toFloat value (inner q) = .ok (cs, cs.map fun c => v q c) := by
    intro q hq
    unfold mapRow withPrefix
    rw [hi q hq]
    simp only [List.mapM_map]
    have e1 : cs.mapM ((fun x : Str × A => namePressure toFloat (str! "pCO-") x.1) ∘ fun c => (str! "pCO-" ++ text c, run q c)) = .ok (cs.map id) :=
      mapM_ok fun c h => namePressure_ok (sep := str! "CO-") (ht c (by simp [h])).2 (ht c (by simp [h])).1
    have e2 : cs.mapM ((fun x : Str × A => value x.2) ∘ fun c => (str! "pCO-" ++ text c, run q c)) = .ok (cs.map fun c => v q c) :=
      mapM_ok fun c h => hv q hq c h
    rw [e1, e2, List.map_id]
    rfl
  have loop : ∀ (l : List K), (∀ q ∈ l, q ∈ qs) → ∀ start, mapLoop toFloat value start (l.map fun q => (str! "pO2-" ++ text q, inner q)) =
      .ok (if l = [] then start else some cs, l, l.map fun q => cs.map fun c => v q c) := by
    intro l
    induction l with
    | nil => intro _ start; rfl
    | cons q l ih =>
      intro hm start
      rw [List.map_cons]
      unfold mapLoop
      dsimp only
      rw [namePressure_ok (sep := str! "O2-") (ht q (by simp [hm q])).2 (ht q (by simp [hm q])).1, row q (hm q (by simp))]
      show (mapLoop toFloat value (some cs) (l.map fun q => (str! "pO2-" ++ text q, inner q)) >>= _) = _
      rw [ih (fun q h => hm q (by simp [h]))]
      show Except.ok (if l = [] then some cs else some cs, _, _) = _
      simp
  unfold gatherMap withPrefix
  rw [hl, loop qs (fun q h => h) none, if_neg hq]
  rfl

/-- C106: in every map that is written the rows belong to the pressures of oxygen in the order of the listing, and each row holds
the values of the runs of its directory; the pressures of carbon monoxide are those of the last directory. -/
theorem C106_rows (toFloat : Str → Option K) (value : A → Py K) (listing : List (Str × List (Str × A))) (cs qs : List K)
    (rows : List (List K)) (h : gatherMap toFloat value listing = .ok (cs, qs, rows)) :
    ∃ init last, listing.filter (fun x => decide (str! "pO2-" <+: x.1)) = init ++ [last] ∧
      (last.2.filter fun x => decide (str! "pCO-" <+: x.1)).mapM (fun x => namePressure toFloat (str! "pCO-") x.1) = .ok cs ∧
      List.Forall₂ (fun d q => namePressure toFloat (str! "pO2-") d.1 = .ok q) (init ++ [last]) qs ∧
      List.Forall₂ (fun d r => (d.2.filter fun x => decide (str! "pCO-" <+: x.1)).mapM (fun x => value x.2) = .ok r) (init ++ [last]) rows := by
  have loop : ∀ (l : List (Str × List (Str × A))) start out, mapLoop toFloat value start l = .ok out →
      (l = [] → out.1 = start) ∧ (∀ init last, l = init ++ [last] →
        ∃ c, out.1 = some c ∧ (last.2.filter fun x => decide (str! "pCO-" <+: x.1)).mapM (fun x => namePressure toFloat (str! "pCO-") x.1) = .ok c) ∧
      List.Forall₂ (fun d q => namePressure toFloat (str! "pO2-") d.1 = .ok q) l out.2.1 ∧
      List.Forall₂ (fun d r => (d.2.filter fun x => decide (str! "pCO-" <+: x.1)).mapM (fun x => value x.2) = .ok r) l out.2.2 := by
    intro l
    induction l with
    | nil =>
      intro start out h
      cases h
      exact ⟨fun _ => rfl, by simp, List.Forall₂.nil, List.Forall₂.nil⟩
    | cons d l ih =>
      intro start out h
      unfold mapLoop at h
      obtain ⟨q, hq, h⟩ := bind_ok.mp h
      obtain ⟨⟨c, vals⟩, hr, h⟩ := bind_ok.mp h
      dsimp only at h
      obtain ⟨⟨last, qs, rows⟩, hl, h⟩ := bind_ok.mp h
      cases h
      obtain ⟨i1, i2, i3, i4⟩ := ih _ _ hl
      unfold mapRow withPrefix at hr
      obtain ⟨c', hc, hr⟩ := bind_ok.mp hr
      obtain ⟨v', hv, hr⟩ := bind_ok.mp hr
      cases hr
      refine ⟨by simp, ?_, List.Forall₂.cons hq i3, List.Forall₂.cons hv i4⟩
      intro init e he
      cases init with
      | nil =>
        simp only [List.nil_append, List.cons.injEq] at he
        obtain ⟨rfl, rfl⟩ := he
        exact ⟨c, i1 rfl, hc⟩
      | cons x init =>
        simp only [List.cons_append, List.cons.injEq] at he
        exact i2 init e he.2
  unfold gatherMap withPrefix at h
  obtain ⟨⟨last, qs', rows'⟩, hl, h⟩ := bind_ok.mp h
  obtain ⟨i1, i2, i3, i4⟩ := loop _ _ _ hl
  rcases List.eq_nil_or_concat (listing.filter fun x => decide (str! "pO2-" <+: x.1)) with e | ⟨init, d, e⟩
  · have := i1 e
    dsimp only at this h
    rw [this] at h
    exact nomatch h
  · rw [List.concat_eq_append] at e
    obtain ⟨c, hc, hm⟩ := i2 init d e
    dsimp only at hc h
    rw [hc] at h
    cases h
    rw [e] at i3 i4
    exact ⟨init, d, e, hm, i3, i4⟩

/-- C106: one run without results leaves no map. -/
theorem C106_failed_refuted (toFloat : Str → Option K) (value : A → Py K) (listing : List (Str × List (Str × A))) (d : Str × List (Str × A))
    (hd : d ∈ listing) (hp : str! "pO2-" <+: d.1) (x : Str × A) (hx : x ∈ d.2) (hxp : str! "pCO-" <+: x.1) (e : PyErr) (hv : value x.2 = .error e) :
    ∃ e', gatherMap toFloat value listing = .error e' := by
  cases h : gatherMap toFloat value listing with
  | error e' => exact ⟨e', rfl⟩
  | ok out =>
    obtain ⟨cs, qs, rows⟩ := out
    obtain ⟨init, last, h1, -, -, h4⟩ := C106_rows toFloat value listing cs qs rows h
    rw [← h1] at h4
    have hm : d ∈ listing.filter fun x => decide (str! "pO2-" <+: x.1) := List.mem_filter.mpr ⟨hd, by simpa using hp⟩
    obtain ⟨r, hr⟩ : ∃ r, (d.2.filter fun x => decide (str! "pCO-" <+: x.1)).mapM (fun x => value x.2) = .ok r := by
      obtain ⟨i, hi, rfl⟩ := List.mem_iff_getElem.mp hm
      exact ⟨rows[i]'(h4.length_eq ▸ hi), h4.get hi _⟩
    obtain ⟨y, -, hy⟩ := (mapM_ok_mem hr).2 x (List.mem_filter.mpr ⟨hx, by simpa using hxp⟩)
    rw [hv] at hy
    exact nomatch hy

end

/-! ### Values -/

section
variable {K : Type}

/-- C106: the map of carbon monoxide holds its last coverage when it is the last of the types, and the map of oxygen when it is
the one before. Missing: other orders of the types (`C106_species_refuted`) and files written by the program
(`C106_own_files_refuted`). -/
theorem C106_coverage_partial (file : List (Stmt K)) (r : RunCvgs K) (h : HoldsCvgs file r) (hl : r.types.length = r.rows.length)
    (types : List Str) (o c : Str) (ht : r.types = types ++ [o, c]) (hn : r.types.Nodup) (x y : K) (hx : r.Final c x) (hy : r.Final o y) :
    mapCO (some file) = .ok x ∧ mapO (some file) = .ok y := by
  obtain ⟨env, he, -, hc⟩ := h
  have hidx : ∀ {i : Nat} {s : Str}, r.types[i]? = some s → ∀ {j : Nat}, r.types[j]? = some s → i = j := by
    intro i s hi j hj
    have hi' := (List.getElem?_eq_some_iff.mp hi).1
    exact (List.getElem?_inj hi' hn).mp (hi.trans hj.symm)
  have val : ∀ (k : Nat) (s : Str) (z : K) (i : Nat), 1 ≤ k → k ≤ r.rows.length → i + k = r.rows.length → r.types[i]? = some s → r.Final s z →
      mapCvg k (some file) = .ok z := by
    intro k s z i hk hk' hik hi hz
    obtain ⟨j, row, h1, -, h3, h4⟩ := hz
    have : j = i := hidx h1 hi
    subst this
    show (execFile file >>= _) = _
    rw [he]
    show (localVar env (str! "coverages") >>= _) = _
    unfold localVar
    rw [hc]
    show (match (r.rows.map Elem.nums).reverse[k - 1]? with | some row => lastNumber row | none => Except.error PyErr.IndexError) = Except.ok z
    rw [List.getElem?_reverse (by simp; omega), List.length_map, show r.rows.length - 1 - (k - 1) = j by omega, List.getElem?_map, h3]
    show (match row.getLast? with | some x => Except.ok x | none => Except.error PyErr.IndexError) = Except.ok z
    rw [h4]
  have hlen : r.rows.length = types.length + 2 := by rw [← hl, ht]; simp
  constructor
  · exact val 1 c x (types.length + 1) (by omega) (by omega) (by omega) (by rw [ht]; simp) hx
  · exact val 2 o y types.length (by omega) (by omega) (by omega) (by rw [ht]; simp) hy

/-- C106 fails for other orders of the types: the map named after carbon monoxide holds the empty sites. -/
theorem C106_species_refuted : ∃ (file : List (Stmt ℚ)) (r : RunCvgs ℚ), HoldsCvgs file r ∧ r.types.Nodup ∧ r.Final (str! "C") (1 / 2) ∧
    r.Final (str! "O_s") (1 / 8) ∧ r.Final (str! "V") (3 / 8) ∧ mapCO (some file) = .ok (3 / 8) ∧ mapO (some file) = .ok (1 / 2) := by
  refine ⟨[.assign (str! "possible_types") [.str (str! "O_s"), .str (str! "C"), .str (str! "V")],
    .assign (str! "coverages") [.nums [1 / 8], .nums [1 / 2], .nums [3 / 8]]],
    ⟨[str! "O_s", str! "C", str! "V"], [[1 / 8], [1 / 2], [3 / 8]]⟩, ⟨_, rfl, rfl, rfl⟩, by decide, ⟨1, [1 / 2], rfl, by decide, rfl, rfl⟩,
    ⟨0, [1 / 8], rfl, by decide, rfl, rfl⟩, ⟨2, [3 / 8], rfl, by decide, rfl, rfl⟩, by decide +kernel, by decide +kernel⟩

/-- C106 fails for the files that the analysis of coverages writes. -/
theorem C106_own_files_refuted (possible : List Str) (hC : str! "C" ∈ possible) (n bufferSize : Nat) (first : CovRec K) (rest : List (CovRec K)) :
    mapCO (some (covFile (covHeader possible) n bufferSize first rest)) = .error .SyntaxError ∧
    mapO (some (covFile (covHeader possible) n bufferSize first rest)) = .error .SyntaxError := by
  have h := C57_coverages_refuted possible n bufferSize first rest hC (by decide) (by decide)
  constructor
  · show (execFile _ >>= _) = _
    rw [h]
    rfl
  · show (execFile _ >>= _) = _
    rw [h]
    rfl

/-- C106: for reversible reactions the frequency is the sum of the rates forwards of the sixth and the seventh reaction. -/
theorem C106_tof_partial [AddMonoid K] (rxns : List Str) (hm : ∀ b ∈ rxns, '(' ∉ b)
    (hs : rxns.Pairwise fun a b => Before (a ++ ['(']) (b ++ ['('])) (rates : Dict Str K) (hk : (keys rates).Nodup)
    (hall : ∀ k, k ∈ keys rates ↔ ∃ b ∈ rxns, k = forwardLabel b ∨ k = reverseLabel b) (R S : Str) (hR : rxns[5]? = some R) (hS : rxns[6]? = some S)
    (a b : K) (ha : (forwardLabel R, a) ∈ rates) (hb : (forwardLabel S, b) ∈ rates) : mapTof (some (.ok (some rates))) = .ok (a + b) := by
  have idx : ∀ (l : List Str) (i : Nat), (pairLabels l)[2 * i]? = (l[i]?).map forwardLabel := by
    intro l
    induction l with
    | nil => intro i; simp [pairLabels]
    | cons x l ih =>
      intro i
      cases i with
      | zero => rfl
      | succ i => exact ih i
  refine rateSum_two (order := pairLabels rxns) ((sorted_pairLabels hm hs).imp fun h => (strLt_iff_before _ _).mp h)
    (fun k => by rw [mem_pairLabels, hall]) hk ?_ ?_ ha hb
  · exact (idx rxns 5).trans (by rw [hR]; rfl)
  · exact (idx rxns 6).trans (by rw [hS]; rfl)

/-- C106: with fewer than seven reversible reactions the frequency cannot be read. -/
theorem C106_few_refuted [Zero K] [Add K] (rates : Dict Str K) (hl : rates.length ≤ 12) : ∃ e, mapTof (some (.ok (some rates))) = .error e := by
  cases h : mapTof (some (.ok (some rates))) with
  | error e => exact ⟨e, rfl⟩
  | ok x =>
    exfalso
    have hs : (sortedSet (keys rates)).length ≤ 12 := by
      have hnd : (sortedSet (keys rates)).Nodup := (sorted_sortedSet _).imp fun {a b} hab e => by
        subst e
        rw [strLt_irrefl] at hab
        cases hab
      have : (sortedSet (keys rates)).length ≤ (keys rates).length := (hnd.subperm fun x hx => mem_sortedSet.mp hx).length_le
      have h2 : (keys rates).length = rates.length := by simp [keys]
      omega
    change rateSum [10, 12] rates = .ok x at h
    unfold rateSum at h
    rw [List.foldlM_cons] at h
    obtain ⟨y, -, h⟩ := bind_ok.mp h
    rw [List.foldlM_cons] at h
    obtain ⟨z, hz, -⟩ := bind_ok.mp h
    rw [List.getElem?_eq_none (by omega)] at hz
    exact nomatch hz

end

/-! ### Examples and refutations -/

/-- A run kept as its value. -/
def exValue : ℚ → Py ℚ := fun x => .ok x

/-- A text for whole numbers. -/
def exText (p : ℚ) : Str := Nat.toDigits 10 p.num.toNat

-- A map of two by two runs with other files in the directories, by the theorem and by evaluation.
example : gatherMap exFloat exValue
    [(str! "jobs.sh", []), (str! "pO2-1", [(str! "pCO-1", 11), (str! "pCO-2", 12), (str! "run.log", 0)]),
      (str! "pO2-2", [(str! "pCO-1", 21), (str! "pCO-2", 22)])] = .ok ([1, 2], [1, 2], [[11, 12], [21, 22]]) := by
  decide +kernel

-- The hypotheses of `C106_map_partial` hold for it.
example : gatherMap exFloat exValue
    [(str! "jobs.sh", []), (str! "pO2-1", [(str! "pCO-1", 11), (str! "pCO-2", 12), (str! "run.log", 0)]),
      (str! "pO2-2", [(str! "pCO-1", 21), (str! "pCO-2", 22), (str! "run.log", 0)])] =
      .ok ([1, 2], [1, 2], [1, 2].map fun q => [1, 2].map fun c => 10 * q + c) :=
  C106_map_partial exFloat exValue exText [1, 2] [1, 2] (by decide) (by decide +kernel) (fun q c => 10 * q + c) (fun q c => 10 * q + c)
    (fun _ _ _ _ => rfl) (fun q => [(str! "pCO-1", 10 * q + 1), (str! "pCO-2", 10 * q + 2), (str! "run.log", 0)]) _ (by decide +kernel) (by decide +kernel)

-- `C106_failed_refuted`: a run without a file of frequencies.
example : ∃ e, gatherMap exFloat (mapTof (K := ℚ)) [(str! "pO2-1", [(str! "pCO-1", some (.ok (some [])))]), (str! "pO2-2", [(str! "pCO-1", none)])] = .error e :=
  C106_failed_refuted exFloat mapTof _ (str! "pO2-2", [(str! "pCO-1", none)]) (by simp) (by decide) (str! "pCO-1", none) (by simp) (by decide) .IOError rfl

-- `C106_coverage_partial`: a run with the types of the example.
example : mapCO (some [.assign (str! "possible_types") [.str (str! "V"), .str (str! "O_s"), .str (str! "C")],
      .assign (str! "coverages") [.nums [(1 / 8 : ℚ)], .nums [1 / 2], .nums [3 / 8]]]) = .ok (3 / 8) ∧
    mapO (some [.assign (str! "possible_types") [.str (str! "V"), .str (str! "O_s"), .str (str! "C")],
      .assign (str! "coverages") [.nums [(1 / 8 : ℚ)], .nums [1 / 2], .nums [3 / 8]]]) = .ok (1 / 2) :=
  C106_coverage_partial (K := ℚ) _ (RunCvgs.mk [str! "V", str! "O_s", str! "C"] [[1 / 8], [1 / 2], [3 / 8]]) ⟨_, rfl, rfl, rfl⟩ rfl [str! "V"] (str! "O_s") (str! "C")
    rfl (by decide) _ _ ⟨2, _, rfl, by decide, rfl, rfl⟩ ⟨1, _, rfl, by decide, rfl, rfl⟩

/-- Seven reactions, named by letters. -/
def exSeven : List Str := [str! "A", str! "B", str! "C", str! "D", str! "E", str! "F", str! "G"]

-- `C106_tof_partial`: seven reactions with rates 1 forwards and 2 backwards.
example : mapTof (some (.ok (some ((exSeven.map fun r => (forwardLabel r, (1 : ℚ))) ++ exSeven.map fun r => (reverseLabel r, 2))))) = .ok (1 + 1) := by
  refine C106_tof_partial exSeven (by decide) ?_ _ (by decide) ?_ (str! "F") (str! "G") rfl rfl 1 1 (by simp [exSeven]) (by simp [exSeven])
  · have : exSeven.Pairwise fun a b => strLt (a ++ ['(']) (b ++ ['(']) = true := by decide
    exact this.imp fun h => (strLt_iff_before _ _).mp h
  · intro k
    simp only [keys, List.map_append, List.map_map, List.mem_append, List.mem_map, Function.comp_def]
    constructor
    · rintro (⟨b, hb, rfl⟩ | ⟨b, hb, rfl⟩)
      · exact ⟨b, hb, Or.inl rfl⟩
      · exact ⟨b, hb, Or.inr rfl⟩
    · rintro ⟨b, hb, rfl | rfl⟩
      · exact Or.inl ⟨b, hb, rfl⟩
      · exact Or.inr ⟨b, hb, rfl⟩

/-- C106 fails when a directory has runs at other pressures than the last one: the value at the pressures 1 and 1 is written at
the pressures 1 and 5. -/
theorem C106_columns_refuted : gatherMap exFloat exValue
    [(str! "pO2-1", [(str! "pCO-1", 11), (str! "pCO-2", 12)]), (str! "pO2-2", [(str! "pCO-5", 25), (str! "pCO-6", 26)])] =
      .ok ([5, 6], [1, 2], [[11, 12], [25, 26]]) := by
  decide +kernel

/-- C106: the pressures are not in increasing order, but in the order of the names. -/
theorem C106_order_refuted : Before (str! "pO2-10") (str! "pO2-2") ∧ gatherMap exFloat exValue
    [(str! "pO2-10", [(str! "pCO-1", 101)]), (str! "pO2-2", [(str! "pCO-1", 21)])] = .ok ([1], [10, 2], [[101], [21]]) :=
  ⟨Or.inr ⟨str! "pO2-", '1', '2', _, _, rfl, rfl, by decide⟩, by decide +kernel⟩

end Verif
