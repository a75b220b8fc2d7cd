import Verif.Model.Descriptors
import Verif.Props.Rates
import Verif.Props.Checks
/- Attributes, cached rate constants and analysis plugins. -/
namespace Verif
open Dict

/-! ## C39 Checks of values -/

/-- C39: integer, string, boolean and dictionary attributes accept exactly the values whose type is
the declared one and which are candidates; everything else is a `ValueError`. -/
theorem C39_type (t : PyType) (cand : Option (PyVal → Bool)) (v : PyVal) :
    (typeCheck t cand v = .ok () ↔ v.type = t ∧ ∀ c, cand = some c → c v = true) ∧
    (typeCheck t cand v ≠ .ok () → typeCheck t cand v = .error .ValueError) := by
  unfold typeCheck checkCandidates
  by_cases h : v.type = t
  · cases cand with
    | none => simp [h]
    | some c => by_cases hc : c v = true <;> simp [h, hc]
  · simp [h]

/-- C39: a boolean is no integer and an integer no boolean. -/
theorem C39_bool (b : Bool) (z : Int) (cand : Option (PyVal → Bool)) :
    typeCheck .int cand (.bool b) = .error .ValueError ∧ typeCheck .bool cand (.int z) = .error .ValueError ∧
    floatCheck cand (.bool b) = .error .ValueError := ⟨rfl, rfl, rfl⟩

/-- C39: float attributes accept exactly floats and integers. -/
theorem C39_float (cand : Option (PyVal → Bool)) (v : PyVal) :
    (floatCheck cand v = .ok () ↔ ((∃ q, v = .float q) ∨ ∃ z, v = .int z) ∧ ∀ c, cand = some c → c v = true) ∧
    (floatCheck cand v ≠ .ok () → floatCheck cand v = .error .ValueError) := by
  unfold floatCheck checkCandidates
  cases v <;> cases cand with
    | none => simp [PyVal.type]
    | some c => simp [PyVal.type]

/-- C39: reference energies are accepted exactly if they are a dictionary from texts to floats. -/
theorem C39_refEnergies (v : PyVal) :
    (refEnergiesCheck v = .ok () ↔ ∃ d, v = .dict d ∧ ∀ e ∈ d, ∃ s q, e = (.str s, .float q)) ∧
    (refEnergiesCheck v ≠ .ok () → refEnergiesCheck v = .error .SetupError) := by
  cases v with
  | dict d =>
    have hl : ∀ d : List (PyVal × PyVal), (refEnergiesCheck (.dict d) = .ok () ↔ ∀ e ∈ d, ∃ s q, e = (.str s, .float q)) ∧
        (refEnergiesCheck (.dict d) ≠ .ok () → refEnergiesCheck (.dict d) = .error .SetupError) := by
      intro d
      induction d with
      | nil => exact ⟨⟨fun _ _ h => (nomatch h), fun _ => rfl⟩, fun h => absurd rfl h⟩
      | cons e d ih =>
        obtain ⟨a, b⟩ := e
        have step : refEnergiesCheck (.dict ((a, b) :: d)) = if a.isStr = false then .error .SetupError
            else if b.isFloat = false then .error .SetupError else refEnergiesCheck (.dict d) := by
          show (do let _ ← (if a.isStr = false then .error .SetupError else if b.isFloat = false then .error .SetupError else .ok ()); refEnergiesCheck (.dict d) : Py Unit) = _
          split
          · rfl
          · split <;> rfl
        rw [step]
        cases a with
        | str x =>
          cases b with
          | float q =>
            rw [if_neg (by simp [PyVal.isStr]), if_neg (by simp [PyVal.isFloat]), List.forall_mem_cons]
            exact ⟨⟨fun h => ⟨⟨x, q, rfl⟩, ih.1.mp h⟩, fun h => ih.1.mpr h.2⟩, ih.2⟩
          | _ => exact ⟨⟨fun h => (nomatch h), fun h => by obtain ⟨s, q, h'⟩ := h _ (List.mem_cons_self ..); exact nomatch h'⟩, fun _ => rfl⟩
        | _ => exact ⟨⟨fun h => (nomatch h), fun h => by obtain ⟨s, q, h'⟩ := h _ (List.mem_cons_self ..); exact nomatch h'⟩, fun _ => rfl⟩
    refine ⟨(hl d).1.trans ⟨fun h => ⟨d, rfl, h⟩, ?_⟩, (hl d).2⟩
    rintro ⟨d', h1, h2⟩
    cases h1
    exact h2
  | _ => exact ⟨⟨fun h => (nomatch h), fun ⟨d, h, _⟩ => (nomatch h)⟩, fun _ => rfl⟩

example : refEnergiesCheck (.dict [(.str (str! "C"), .float (-3))]) = .ok () ∧ refEnergiesCheck (.dict [(.str (str! "C"), .int 3)]) = .error .SetupError := ⟨rfl, rfl⟩

/-- C39: species definitions are accepted exactly if they are a dictionary with texts as keys in which the value for
every key ending in `_g` contains "pressure"; otherwise one of three errors is raised. -/
theorem C39_species (v : PyVal) :
    (speciesCheck v = .ok () ↔ ∃ d, v = .dict d ∧ ∀ e ∈ d, ∃ s, e.1 = .str s ∧ (str! "_g" <:+ s → hasPressure e.2 = .ok true)) ∧
    ((∀ d, v ≠ .dict d) → speciesCheck v = .error .SetupError) ∧
    (∀ a e b, v = .dict (a ++ e :: b) → speciesCheck (.dict a) = .ok () →
      ((∀ s, e.1 ≠ .str s) → speciesCheck v = .error .AttributeError) ∧
      ∀ s, e.1 = .str s → str! "_g" <:+ s → (hasPressure e.2 = .ok false → speciesCheck v = .error .SetupError) ∧
        ∀ x, hasPressure e.2 = .error x → speciesCheck v = .error x) := by
  have step : ∀ (e : PyVal × PyVal) (d : List (PyVal × PyVal)), speciesCheck (.dict (e :: d)) =
      (speciesCheck (.dict [e]) >>= fun _ => speciesCheck (.dict d)) := by
    intro e d
    show _ >>= _ = (_ >>= fun _ => pure PUnit.unit) >>= _
    rw [bind_assoc]
    rfl
  have one : ∀ (e : PyVal × PyVal), (∀ s, e.1 = .str s → speciesCheck (.dict [e]) =
      if str! "_g" <:+ s then (hasPressure e.2 >>= fun b => if b then .ok () else .error .SetupError) else .ok ()) ∧
      ((∀ s, e.1 ≠ .str s) → speciesCheck (.dict [e]) = .error .AttributeError) := by
    rintro ⟨k, w⟩
    constructor
    · rintro s h
      dsimp only at h
      subst h
      have : speciesCheck (.dict [(.str s, w)]) = (checkSpeciesLoop [(s, w)] >>= fun _ => .ok ()) := rfl
      rw [this]
      unfold checkSpeciesLoop
      split
      · cases hasPressure w with
        | error x => rfl
        | ok b => cases b <;> rfl
      · rfl
    · intro h
      cases k with
      | str s => exact absurd rfl (h s)
      | _ => rfl
  have app : ∀ a d : List (PyVal × PyVal), speciesCheck (.dict a) = .ok () → speciesCheck (.dict (a ++ d)) = speciesCheck (.dict d) := by
    intro a d
    induction a with
    | nil => intro _; rfl
    | cons e a ih =>
      intro h
      rw [step] at h
      obtain ⟨u, h1, h2⟩ := bind_ok.mp h
      rw [List.cons_append, step, h1, ← ih h2]
      rfl
  refine ⟨?_, ?_, ?_⟩
  · constructor
    · intro h
      cases v with
      | dict d =>
        refine ⟨d, rfl, ?_⟩
        induction d with
        | nil => exact fun _ h => (nomatch h)
        | cons e d ih =>
          rw [step] at h
          obtain ⟨u, h1, h2⟩ := bind_ok.mp h
          rw [List.forall_mem_cons]
          refine ⟨?_, ih h2⟩
          by_cases hs : ∃ s, e.1 = .str s
          · obtain ⟨s, hs⟩ := hs
            refine ⟨s, hs, fun hg => ?_⟩
            rw [(one e).1 s hs, if_pos hg] at h1
            obtain ⟨b, h3, h4⟩ := bind_ok.mp h1
            cases b with
            | true => exact h3
            | false => exact nomatch h4
          · rw [(one e).2 (fun s h => hs ⟨s, h⟩)] at h1
            exact nomatch h1
      | _ => exact nomatch h
    · rintro ⟨d, rfl, h⟩
      induction d with
      | nil => rfl
      | cons e d ih =>
        rw [List.forall_mem_cons] at h
        obtain ⟨⟨s, hs, hg⟩, h2⟩ := h
        rw [step, (one e).1 s hs]
        split
        · rename_i hx
          rw [hg hx]
          exact ih h2
        · exact ih h2
  · intro h
    cases v with
    | dict d => exact absurd rfl (h d)
    | _ => rfl
  · rintro a e b rfl ha
    rw [app a _ ha, step]
    refine ⟨fun h => by rw [(one e).2 h]; rfl, fun s hs hg => ?_⟩
    rw [(one e).1 s hs, if_pos hg]
    exact ⟨fun h => by rw [h]; rfl, fun x h => by rw [h]; rfl⟩

example : speciesCheck (.dict [(.str (str! "CO_g"), .dict [(.str (str! "pressure"), .float 1)]), (.str (str! "*_s"), .int 1)]) = .ok () ∧
    speciesCheck (.dict [(.str (str! "CO_g"), .dict [])]) = .error .SetupError ∧ speciesCheck (.dict [(.int 1, .dict [])]) = .error .AttributeError ∧
    speciesCheck (.dict [(.str (str! "CO_g"), .int 1)]) = .error .TypeError := ⟨rfl, rfl, rfl, rfl⟩

/-- C39: sequence attributes accept exactly lists and tuples whose entries have the entry type and
are candidates. -/
theorem C39_sequence (t : Option PyType) (cand : Option (PyVal → Bool)) (v : PyVal) :
    (sequenceCheck t cand v = .ok () ↔ ∃ l, IsSeq v l ∧ (∀ ty, t = some ty → ∀ e ∈ l, e.type = ty) ∧
      ∀ c, cand = some c → ∀ e ∈ l, c e = true) ∧
    (sequenceCheck t cand v ≠ .ok () → sequenceCheck t cand v = .error .ValueError) := by
  unfold sequenceCheck
  cases hv : v.seq? with
  | none =>
    have : ∀ l, ¬ IsSeq v l := by
      intro l hl
      rw [← seq?_some, hv] at hl
      cases hl
    simp [this]
  | some l =>
    have hl : ∀ l', IsSeq v l' ↔ l' = l := by
      intro l'
      rw [← seq?_some, hv, Option.some.injEq, eq_comm]
    simp only [hl, exists_eq_left]
    cases t with
    | none =>
      cases cand with
      | none => simp
      | some c =>
        by_cases h : (l.any fun e => !c e) = true
        · obtain ⟨e, he, hc⟩ := List.any_eq_true.mp h
          simp only [Bool.false_eq_true, if_false, h, if_true]
          refine ⟨⟨fun h => (nomatch h), fun h => ?_⟩, fun _ => trivial⟩
          have := h.2 c rfl e he
          rw [this] at hc; cases hc
        · simp only [Bool.false_eq_true, if_false, h]
          refine ⟨⟨fun _ => ⟨fun ty h => (nomatch h), fun c' hc' e he => ?_⟩, fun _ => trivial⟩, fun h => absurd rfl h⟩
          cases hc'
          by_contra hx
          exact h (List.any_eq_true.mpr ⟨e, he, by simpa using hx⟩)
    | some ty =>
      by_cases ht : (l.any fun e => decide (e.type ≠ ty)) = true
      · obtain ⟨e, he, hc⟩ := List.any_eq_true.mp ht
        simp only [ht, if_true]
        refine ⟨⟨fun h => (nomatch h), fun h => ?_⟩, fun _ => trivial⟩
        have := h.1 ty rfl e he
        simp [this] at hc
      · have hty : ∀ e ∈ l, e.type = ty := by
          intro e he
          by_contra hx
          exact ht (List.any_eq_true.mpr ⟨e, he, by simpa using hx⟩)
        simp only [ht]
        cases cand with
        | none =>
          refine ⟨⟨fun _ => ⟨fun ty' h => ?_, fun c h => (nomatch h)⟩, fun _ => rfl⟩, fun h => absurd rfl h⟩
          cases h; exact hty
        | some c =>
          by_cases h : (l.any fun e => !c e) = true
          · obtain ⟨e, he, hc⟩ := List.any_eq_true.mp h
            simp only [Bool.false_eq_true, if_false, h, if_true]
            refine ⟨⟨fun h => (nomatch h), fun h => ?_⟩, fun _ => trivial⟩
            have := h.2 c rfl e he
            rw [this] at hc; cases hc
          · simp only [Bool.false_eq_true, if_false, h]
            refine ⟨⟨fun _ => ⟨fun ty' h => ?_, fun c' hc' e he => ?_⟩, fun _ => trivial⟩, fun h => absurd rfl h⟩
            · cases h; exact hty
            · cases hc'
              by_contra hx
              exact h (List.any_eq_true.mpr ⟨e, he, by simpa using hx⟩)

/-- `rxn_expressions`: texts are accepted, a list with a number is not, nor is a text. -/
example : sequenceCheck (some .str) none (.list [.str (str! "CO_g + *_s -> CO_s")]) = .ok () ∧
    sequenceCheck (some .str) none (.list [.str (str! "CO_g + *_s -> CO_s"), .int 1]) = .error .ValueError ∧
    sequenceCheck (some .str) none (.str (str! "CO_g + *_s -> CO_s")) = .error .ValueError := ⟨rfl, rfl, rfl⟩

/-! ## C38 Attributes -/

section
variable (cls : Str) (d : Descr)

/-- The first operation that stores a value: a read or an assignment of an accepted value. -/
def firstStoring : List AttrOp → Option AttrOp
  | [] => none
  | .read :: _ => some .read
  | .write v :: ops => if d.check v = .ok () then some (.write v) else firstStoring ops

theorem attrStep_stored {inst : Dict Str PyVal} {w : PyVal} (h : get? inst (privateName cls d.name) = some w) (op : AttrOp) :
    attrStep cls d inst op = inst := by
  cases op with
  | read => unfold attrStep descrGet; rw [h]
  | write v =>
    unfold attrStep descrSet
    dsimp only
    cases hc : d.check v with
    | error e => rfl
    | ok u =>
      show (match (match get? inst (privateName cls d.name) with
        | none => pure (inst.set (privateName cls d.name) v)
        | some _ => .error .AttributeError : Py (Dict Str PyVal)) with | .ok i => i | .error _ => inst) = inst
      rw [h]

theorem attrSteps_stored {inst : Dict Str PyVal} {w : PyVal} (h : get? inst (privateName cls d.name) = some w) (ops : List AttrOp) :
    ops.foldl (attrStep cls d) inst = inst := by
  induction ops with
  | nil => rfl
  | cons op ops ih => rw [List.foldl_cons, attrStep_stored cls d h, ih]

/-- C38: after any history of reads and assignments, valid or not, the stored value is decided by
the first read or accepted assignment, and never changes afterwards. -/
theorem C38_history (inst : Dict Str PyVal) (h0 : get? inst (privateName cls d.name) = none) (ops : List AttrOp) :
    get? (ops.foldl (attrStep cls d) inst) (privateName cls d.name) =
      match firstStoring d ops with
      | none => none
      | some .read => some d.default
      | some (.write v) => some v := by
  induction ops with
  | nil => exact h0
  | cons op ops ih =>
    rw [List.foldl_cons]
    cases op with
    | read =>
      have e : attrStep cls d inst .read = inst.set (privateName cls d.name) d.default := by
        unfold attrStep descrGet; rw [h0]
      rw [e, attrSteps_stored cls d (w := d.default) (by rw [get?_set, if_pos rfl]), get?_set, if_pos rfl]
      rfl
    | write v =>
      cases hc : d.check v with
      | error err =>
        have e : attrStep cls d inst (.write v) = inst := by
          unfold attrStep descrSet; dsimp only; rw [hc]; rfl
        rw [e, ih]
        have : firstStoring d (.write v :: ops) = firstStoring d ops := by
          show (if d.check v = .ok () then _ else _) = _
          rw [if_neg (by rw [hc]; exact fun h => nomatch h)]
        rw [this]
      | ok u =>
        have e : attrStep cls d inst (.write v) = inst.set (privateName cls d.name) v := by
          unfold attrStep descrSet
          dsimp only
          rw [hc]
          show (match (match get? inst (privateName cls d.name) with
            | none => pure (inst.set (privateName cls d.name) v)
            | some _ => .error .AttributeError : Py (Dict Str PyVal)) with | .ok i => i | .error _ => inst) = _
          rw [h0]; rfl
        have : firstStoring d (.write v :: ops) = some (.write v) := by
          show (if d.check v = .ok () then _ else _) = _
          rw [if_pos hc]
        rw [e, attrSteps_stored cls d (w := v) (by rw [get?_set, if_pos rfl]), get?_set, if_pos rfl, this]

theorem firstStoring_valid : ∀ (ops : List AttrOp) {v : PyVal}, firstStoring d ops = some (.write v) →
    d.check v = .ok () ∧ .write v ∈ ops
  | [], _, h => nomatch h
  | .read :: _, _, h => by cases h
  | .write w :: ops, v, h => by
    have h' : (if d.check w = .ok () then some (.write w) else firstStoring d ops) = some (.write v) := h
    split at h'
    · rename_i hc; cases h'; exact ⟨hc, List.mem_cons_self⟩
    · obtain ⟨h1, h2⟩ := firstStoring_valid ops h'
      exact ⟨h1, List.mem_cons_of_mem _ h2⟩

/-- C38: what is read is the default or an assigned value that passed the check. -/
theorem C38_valid (inst : Dict Str PyVal) (h0 : get? inst (privateName cls d.name) = none) (ops : List AttrOp) :
    (descrGet cls d (ops.foldl (attrStep cls d) inst)).1 = d.default ∨
    ∃ v, (descrGet cls d (ops.foldl (attrStep cls d) inst)).1 = v ∧ .write v ∈ ops ∧ d.check v = .ok () := by
  have h := C38_history cls d inst h0 ops
  unfold descrGet
  cases hf : firstStoring d ops with
  | none => rw [hf] at h; rw [h]; exact .inl rfl
  | some op =>
    rw [hf] at h
    cases op with
    | read => rw [h]; exact .inl rfl
    | write v =>
      obtain ⟨h1, h2⟩ := firstStoring_valid d ops hf
      rw [h]; exact .inr ⟨v, rfl, h2, h1⟩

/-- C38: once something is stored every assignment raises: the error of the check, or
`AttributeError`. -/
theorem C38_once (inst : Dict Str PyVal) {w : PyVal} (h : get? inst (privateName cls d.name) = some w) (v : PyVal) :
    descrSet cls d inst v = match d.check v with | .ok _ => .error .AttributeError | .error e => .error e := by
  unfold descrSet
  cases d.check v with
  | error e => rfl
  | ok u =>
    show (match get? inst (privateName cls d.name) with
      | none => pure (inst.set (privateName cls d.name) v)
      | some _ => .error .AttributeError : Py (Dict Str PyVal)) = _
    rw [h]

/-- C38, partial: as long as nothing has been read or accepted, an accepted value can be assigned.
Missing: reads in between (`C38_read_refuted`). -/
theorem C38_assign_partial (inst : Dict Str PyVal) (h0 : get? inst (privateName cls d.name) = none) (ops : List AttrOp)
    (hf : firstStoring d ops = none) (v : PyVal) (hv : d.check v = .ok ()) :
    ∃ inst', descrSet cls d (ops.foldl (attrStep cls d) inst) v = .ok inst' ∧ (descrGet cls d inst').1 = v := by
  have h := C38_history cls d inst h0 ops
  rw [hf] at h
  refine ⟨(ops.foldl (attrStep cls d) inst).set (privateName cls d.name) v, ?_, ?_⟩
  · unfold descrSet
    rw [hv]
    show (match get? (ops.foldl (attrStep cls d) inst) (privateName cls d.name) with
      | none => pure ((ops.foldl (attrStep cls d) inst).set (privateName cls d.name) v)
      | some _ => .error .AttributeError : Py (Dict Str PyVal)) = _
    rw [h]; rfl
  · unfold descrGet
    rw [get?_set, if_pos rfl]

/-- C38, refuted: reading an attribute that has not been assigned makes it impossible to assign it
afterwards. -/
theorem C38_read_refuted (inst : Dict Str PyVal) (h0 : get? inst (privateName cls d.name) = none) (v : PyVal) (hv : d.check v = .ok ()) :
    (∃ inst', descrSet cls d inst v = .ok inst') ∧ descrSet cls d (descrGet cls d inst).2 v = .error .AttributeError := by
  constructor
  · obtain ⟨i, h, -⟩ := C38_assign_partial cls d inst h0 [] rfl v hv
    exact ⟨i, h⟩
  · have : get? (descrGet cls d inst).2 (privateName cls d.name) = some d.default := by
      unfold descrGet; rw [h0]; show get? (inst.set _ _) _ = _; rw [get?_set, if_pos rfl]
    rw [C38_once cls d _ this, hv]

/-- C38: operations on one attribute do not touch another of the same class. -/
theorem C38_others (inst : Dict Str PyVal) (ops : List AttrOp) (name : Str) (hn : name ≠ d.name) :
    get? (ops.foldl (attrStep cls d) inst) (privateName cls name) = get? inst (privateName cls name) := by
  have hp : privateName cls d.name ≠ privateName cls name := by
    intro h
    apply hn
    have := List.append_cancel_left (List.cons.inj h).2
    simpa using this.symm
  induction ops generalizing inst with
  | nil => rfl
  | cons op ops ih =>
    rw [List.foldl_cons, ih]
    cases op with
    | read =>
      unfold attrStep descrGet
      dsimp only
      split
      · rfl
      · show get? (inst.set _ _) _ = _
        rw [get?_set, if_neg hp]
    | write v =>
      unfold attrStep descrSet
      dsimp only
      cases hc : d.check v with
      | error e => rfl
      | ok u =>
        cases hg : get? inst (privateName cls d.name) with
        | none =>
          show get? (inst.set _ _) _ = _
          rw [get?_set, if_neg hp]
        | some w => rfl

end

/-- The temperature of a model. -/
def exTemperature : Descr := ⟨str! "temperature", floatCheck none, .float 298⟩

/-- A text is rejected, then 450 is accepted, then 500 is not. -/
example : get? ([] : Dict Str PyVal) (privateName (str! "MicroKineticModel") exTemperature.name) = none ∧
    firstStoring exTemperature [.write (.str (str! "hot"))] = none ∧ exTemperature.check (.int 450) = .ok () ∧
    firstStoring exTemperature [.write (.str (str! "hot")), .write (.int 450), .write (.int 500)] = some (.write (.int 450)) :=
  ⟨rfl, rfl, rfl, rfl⟩

/-! ## C40 Cached rate constants -/

section
variable {I E R : Type} [DecidableEq E] (own : I → E) (fresh : I → MemoArgs E → Py R)

/-- The cache holds only results of the function. -/
def MemoOk (F : MemoArgs E → Py R) (m : Memo I E R) : Prop := ∀ k r, get? m.results k = some r → F k = .ok r

theorem memo_use_ok {F : MemoArgs E → Py R} {m : Memo I E R} (hm : MemoOk F m) {i : I} {args : MemoArgs E}
    (hF : fresh i args = F (memoKey own i args)) :
    (m.use own fresh i args).1 = fresh i args ∧ MemoOk F (m.use own fresh i args).2 := by
  unfold Memo.use Memo.call Memo.get
  dsimp only
  cases hg : get? m.results (memoKey own i args) with
  | some r => exact ⟨by rw [hF, hm _ _ hg], hm⟩
  | none =>
    dsimp only
    cases hr : fresh i args with
    | error e => exact ⟨rfl, hm⟩
    | ok r =>
      refine ⟨rfl, ?_⟩
      intro k r' hk
      have hk' : get? (m.results.set (memoKey own i args) r) k = some r' := hk
      rw [get?_set] at hk'
      split at hk'
      · rename_i h; cases hk'; rw [← h, ← hF, hr]
      · exact hm k r' hk'

/-- C40, partial: after any history of uses of solvers whose function depends on the key only, a
use returns what a fresh computation would. Missing: models with other temperatures or reactions
(`C40_temperature_refuted`) and energies left out (`C40_absent_refuted`). -/
theorem C40_cached_partial (F : MemoArgs E → Py R) (uses : List (I × MemoArgs E))
    (hF : ∀ u ∈ uses, fresh u.1 u.2 = F (memoKey own u.1 u.2)) (m : Memo I E R) (hm : MemoOk F m) (i : I) (args : MemoArgs E)
    (hi : fresh i args = F (memoKey own i args)) :
    ((uses.foldl (fun m u => (m.use own fresh u.1 u.2).2) m).use own fresh i args).1 = fresh i args := by
  induction uses generalizing m with
  | nil => exact (memo_use_ok own fresh hm hi).1
  | cons u uses ih =>
    rw [List.foldl_cons]
    exact ih (fun v hv => hF v (by simp [hv])) _ (memo_use_ok own fresh hm (hF u (by simp))).2

end

/-- A solver as the cache sees it: what its owner gives, the method and the owner's energies. -/
structure CachedSolver where
  owner : RateOwner
  method : RateAlgo
  energies : RelDict ℝ

/-- `get_rate_constants` without the cache.
Models: `scaks/solvers/mean_field_solver.py` 186-236, with energies in the owner. -/
noncomputable def freshConstants (s : CachedSolver) (args : MemoArgs (RelDict ℝ)) : Py (List ℝ × List ℝ) :=
  match args.energies with
  | some (some e) => rateConstants s.owner s.method e
  | _ => rateConstants s.owner s.method s.energies

open Classical in
/-- C40 for solvers of models with the same owner data and method: any energies, given or those of
the model, are served correctly after any history. -/
theorem C40_same_model_partial (o : RateOwner) (meth : RateAlgo) (uses : List (CachedSolver × MemoArgs (RelDict ℝ)))
    (s : CachedSolver) (args : MemoArgs (RelDict ℝ))
    (h : ∀ u ∈ (s, args) :: uses, u.1.owner = o ∧ u.1.method = meth ∧ u.2.energies ≠ none) :
    ((uses.foldl (fun m u => (m.use CachedSolver.energies freshConstants u.1 u.2).2) (⟨none, []⟩ : Memo CachedSolver (RelDict ℝ) (List ℝ × List ℝ))).use
      CachedSolver.energies freshConstants s args).1 = freshConstants s args := by
  have key : ∀ u ∈ (s, args) :: uses, freshConstants u.1 u.2 =
      (fun k : MemoArgs (RelDict ℝ) => match k.energies with | some (some e) => rateConstants o meth e | _ => .error .AttributeError)
        (memoKey CachedSolver.energies u.1 u.2) := by
    intro u hu
    obtain ⟨h1, h2, h3⟩ := h u hu
    unfold freshConstants memoKey
    rcases hu2 : u.2.energies with _ | e
    · exact absurd hu2 h3
    · cases e with
      | none => simp [h1, h2]
      | some e => simp [h1, h2, hu2]
  exact C40_cached_partial CachedSolver.energies freshConstants
    (fun k : MemoArgs (RelDict ℝ) => match k.energies with | some (some e) => rateConstants o meth e | _ => .error .AttributeError) uses (fun u hu => key u (by simp [hu])) _ (fun k r hk => by simp [get?] at hk) s args (key (s, args) (by simp))

theorem single_constants (rxn : Str) (T a : ℝ) (k : ℝ) (h : kTST a T = .ok k) :
    rateConstants ⟨[rxn], T, [], 0, 0, false⟩ .TST ⟨some [a], some [a], some [0]⟩ = .ok ([k], [k]) := by
  have hrel : relOf [rxn] ⟨some [a], some [a], some [0]⟩ rxn = .ok (⟨a, a, 0⟩ : Rel1 ℝ) :=
    relOf_ok.mpr ⟨by simp, _, _, _, rfl, rfl, rfl, by simp⟩
  have h' := ratesTST_ok (o := ⟨[rxn], T, [], 0, 0, false⟩) (k := (k, k)).mpr ⟨_, hrel, h, h⟩
  unfold rateConstants
  simp only [List.mapM_cons, List.mapM_nil]
  rw [h']
  rfl

open Classical in
/-- C40, refuted: two models that differ in temperature only. After the first has been asked, the
second gets the constants of the first. -/
theorem C40_temperature_refuted (rxn : Str) (T T' a : ℝ) (ha : 0 ≤ a) (hT : 0 < T) (hTT : T < T') :
    let rel : RelDict ℝ := ⟨some [a], some [a], some [0]⟩
    let s : CachedSolver := ⟨⟨[rxn], T, [], 0, 0, false⟩, .TST, rel⟩
    let s' : CachedSolver := ⟨⟨[rxn], T', [], 0, 0, false⟩, .TST, rel⟩
    let args : MemoArgs (RelDict ℝ) := ⟨some none, none⟩
    ∃ r r', freshConstants s args = .ok r ∧ freshConstants s' args = .ok r' ∧ r ≠ r' ∧
      (((⟨none, []⟩ : Memo CachedSolver (RelDict ℝ) (List ℝ × List ℝ)).use CachedSolver.energies freshConstants s args).2.use
        CachedSolver.energies freshConstants s' args).1 = .ok r := by
  intro rel s s' args
  obtain ⟨k, hk, -⟩ := C16_positive_decreasing T hT a
  obtain ⟨k', hk', -⟩ := C16_positive_decreasing T' (hT.trans hTT) a
  have hlt := C16_increasing_in_temperature a T T' k k' ha hT hTT hk hk'
  have h1 : freshConstants s args = .ok ([k], [k]) := single_constants rxn T a k hk
  have h2 : freshConstants s' args = .ok ([k'], [k']) := single_constants rxn T' a k' hk'
  refine ⟨([k], [k]), ([k'], [k']), h1, h2, ?_, ?_⟩
  · intro h
    have := (Prod.ext_iff.mp h).1
    simp at this
    exact hlt.ne this
  · unfold Memo.use Memo.call Memo.get
    have e1 : memoKey CachedSolver.energies s args = ⟨some (some rel), none⟩ := rfl
    have e2 : memoKey CachedSolver.energies s' args = ⟨some (some rel), none⟩ := rfl
    dsimp only
    rw [e1, e2, h1]
    simp [get?, Dict.set]

open Classical in
/-- C40, refuted: called without the energies, the key is empty, so after new energies have been
read the old constants are returned. -/
theorem C40_absent_refuted (rxn : Str) (T a b : ℝ) (hT : 0 < T) (hab : a < b) :
    let o : RateOwner := ⟨[rxn], T, [], 0, 0, false⟩
    let s : CachedSolver := ⟨o, .TST, ⟨some [a], some [a], some [0]⟩⟩
    let s' : CachedSolver := ⟨o, .TST, ⟨some [b], some [b], some [0]⟩⟩
    let args : MemoArgs (RelDict ℝ) := ⟨none, none⟩
    ∃ r r', freshConstants s args = .ok r ∧ freshConstants s' args = .ok r' ∧ r ≠ r' ∧
      (((⟨none, []⟩ : Memo CachedSolver (RelDict ℝ) (List ℝ × List ℝ)).use CachedSolver.energies freshConstants s args).2.use
        CachedSolver.energies freshConstants s' args).1 = .ok r := by
  intro o s s' args
  obtain ⟨k, hk, -, -, hd⟩ := C16_positive_decreasing T hT a
  obtain ⟨k', hk', hlt⟩ := hd b hab
  have h1 : freshConstants s args = .ok ([k], [k]) := single_constants rxn T a k hk
  have h2 : freshConstants s' args = .ok ([k'], [k']) := single_constants rxn T b k' hk'
  refine ⟨([k], [k]), ([k'], [k']), h1, h2, ?_, ?_⟩
  · intro h
    have := (Prod.ext_iff.mp h).1
    simp at this
    exact hlt.ne this.symm
  · unfold Memo.use Memo.call Memo.get
    have e1 : memoKey CachedSolver.energies s args = args := rfl
    have e2 : memoKey CachedSolver.energies s' args = args := rfl
    dsimp only
    rw [e1, e2, h1]
    simp [get?, Dict.set]

/-! ### C40 Energies changed in place -/

section
variable {E R : Type} [DecidableEq E] (H : E → Int) (fresh : E → Py R)

/-- The contents energies objects have had in a history. -/
def contents : List (HashOp E) → List E
  | [] => []
  | .make e :: l => e :: contents l
  | .change _ e :: l => e :: contents l
  | .ask _ :: l => contents l

/-- C40, partial: after any history of making energies, changing them in place and asking, rate
constants are those of the present energies, provided no two contents have the same hash. Missing:
numbers that share a hash (`C40_in_place_refuted`). -/
theorem C40_in_place_partial (ops : List (HashOp E))
    (hH : ∀ e ∈ contents ops, ∀ e' ∈ contents ops, H e = H e' → e = e') (r : Nat) (e : E)
    (hr : (ops.foldl (HashMemo.step H fresh) ⟨[], []⟩).objs[r]? = some e) :
    ((ops.foldl (HashMemo.step H fresh) ⟨[], []⟩).call H fresh r).1 = fresh e := by
  have key : ∀ (ops : List (HashOp E)) (seen : List E) (m : HashMemo E R),
      (∀ e ∈ m.objs, e ∈ seen) → (∀ t ∈ m.entries, ∃ e ∈ seen, H e = t.hash ∧ fresh e = .ok t.result) →
      (∀ e ∈ (ops.foldl (HashMemo.step H fresh) m).objs, e ∈ seen ++ contents ops) ∧
      (∀ t ∈ (ops.foldl (HashMemo.step H fresh) m).entries, ∃ e ∈ seen ++ contents ops, H e = t.hash ∧ fresh e = .ok t.result) := by
    intro ops
    induction ops with
    | nil => intro seen m h1 h2; simpa [contents] using ⟨h1, h2⟩
    | cons op ops ih =>
      intro seen m h1 h2
      rw [List.foldl_cons]
      cases op with
      | make e =>
        have := ih (seen ++ [e]) (m.step H fresh (.make e)) (by
          intro x hx
          rcases List.mem_append.mp hx with hx | hx
          · exact List.mem_append_left _ (h1 x hx)
          · exact List.mem_append_right _ hx) (by
          intro t ht
          obtain ⟨x, hx, q⟩ := h2 t ht
          exact ⟨x, List.mem_append_left _ hx, q⟩)
        simpa [contents] using this
      | change r e =>
        have := ih (seen ++ [e]) (m.step H fresh (.change r e)) (by
          intro x hx
          rcases List.mem_or_eq_of_mem_set hx with hx | hx
          · exact List.mem_append_left _ (h1 x hx)
          · simp [hx]) (by
          intro t ht
          obtain ⟨x, hx, q⟩ := h2 t ht
          exact ⟨x, List.mem_append_left _ hx, q⟩)
        simpa [contents] using this
      | ask r =>
        refine ih seen (m.step H fresh (.ask r)) ?_ ?_
        · have : (m.step H fresh (.ask r)).objs = m.objs := by
            unfold HashMemo.step HashMemo.call
            dsimp only
            repeat' split
            all_goals rfl
          rw [this]; exact h1
        · unfold HashMemo.step HashMemo.call
          dsimp only
          split
          · exact h2
          · rename_i e he
            split
            · exact h2
            · split
              · rename_i v hv
                intro t ht
                rcases List.mem_append.mp ht with ht | ht
                · exact h2 t ht
                · rw [List.mem_singleton] at ht
                  subst ht
                  exact ⟨e, h1 e (List.mem_of_getElem? he), rfl, hv⟩
              · exact h2
  obtain ⟨k1, k2⟩ := key ops [] ⟨[], []⟩ (by simp) (by simp)
  simp only [List.nil_append] at k1 k2
  generalize ops.foldl (HashMemo.step H fresh) ⟨[], []⟩ = m at *
  unfold HashMemo.call
  rw [hr]
  dsimp only
  cases hf : m.find H r e with
  | some v =>
    obtain ⟨t, ht, rfl⟩ := Option.map_eq_some_iff.mp hf
    obtain ⟨e', he', q1, q2⟩ := k2 t (List.mem_of_find?_eq_some ht)
    have := List.find?_some ht
    simp only [decide_eq_true_eq] at this
    rw [hH e (k1 e (List.mem_of_getElem? hr)) e' he' (by rw [q1, this.1])]
    exact q2.symm
  | none => dsimp only; cases fresh e <;> rfl

/-- C40: contents with the same hash in the same object give a stale result. -/
theorem stale_result (e e' : E) (v : R) (h : H e = H e') (hv : fresh e = .ok v) :
    (([.make e, .ask 0, .change 0 e'] : List (HashOp E)).foldl (HashMemo.step H fresh) ⟨[], []⟩).objs[0]? = some e' ∧
    ((([.make e, .ask 0, .change 0 e'] : List (HashOp E)).foldl (HashMemo.step H fresh) ⟨[], []⟩).call H fresh 0).1 = .ok v := by
  simp [HashMemo.step, HashMemo.call, HashMemo.find, hv, h]

end

/-- The hash of energies: any combination of the hashes of their numbers. -/
def energiesHash (comb : Option (List Int) → Option (List Int) → Option (List Int) → Int) (e : RelDict ℚ) : Int :=
  comb (e.gaf.map (·.map pyHash)) (e.gar.map (·.map pyHash)) (e.dg.map (·.map pyHash))

/-- The rate constants of energies that are floats. -/
noncomputable def floatConstants (o : RateOwner) (m : RateAlgo) (e : RelDict ℚ) : Py (List ℝ × List ℝ) :=
  rateConstants o m ⟨e.gaf.map (·.map (↑)), e.gar.map (·.map (↑)), e.dg.map (·.map (↑))⟩

open Classical in
/-- C40, refuted: -1 and -2 have the same hash in CPython. Energies changed in place from -1 to -2
electron volt get the rate constants of -1. -/
theorem C40_in_place_refuted (comb : Option (List Int) → Option (List Int) → Option (List Int) → Int) (rxn : Str) (T : ℝ) (hT : 0 < T) :
    let o : RateOwner := ⟨[rxn], T, [], 0, 0, false⟩
    let e : RelDict ℚ := ⟨some [-1], some [-1], some [0]⟩
    let e' : RelDict ℚ := ⟨some [-2], some [-2], some [0]⟩
    let m := ([.make e, .ask 0, .change 0 e'] : List (HashOp (RelDict ℚ))).foldl
      (HashMemo.step (energiesHash comb) (floatConstants o .TST)) ⟨[], []⟩
    m.objs[0]? = some e' ∧ ∃ r r', (m.call (energiesHash comb) (floatConstants o .TST) 0).1 = .ok r ∧
      floatConstants o .TST e' = .ok r' ∧ r ≠ r' := by
  intro o e e' m
  obtain ⟨k', hk', -, -, hd⟩ := C16_positive_decreasing T hT (-2)
  obtain ⟨k, hk, hlt⟩ := hd (-1) (by norm_num)
  have h1 : floatConstants o .TST e = .ok ([k], [k]) := by
    have := single_constants rxn T (-1) k hk
    unfold floatConstants
    simpa [e] using this
  have h2 : floatConstants o .TST e' = .ok ([k'], [k']) := by
    have := single_constants rxn T (-2) k' hk'
    unfold floatConstants
    simpa [e'] using this
  have hash : pyHash (-1) = pyHash (-2) := by decide +kernel
  obtain ⟨a, b⟩ := stale_result (energiesHash comb) (floatConstants o .TST) e e' _
    (by simp only [energiesHash, e, e', Option.map_some, List.map_cons, List.map_nil, hash]) h1
  refine ⟨a, _, _, b, h2, ?_⟩
  intro h
  have := (Prod.ext_iff.mp h).1
  simp at this
  exact hlt.ne this

/-- Contents with different hashes: energies of 1/2 changed to 3/4 and back. -/
example : ∀ e ∈ contents [.make (1 / 2 : ℚ), .ask 0, .change 0 (3 / 4), .ask 0, .change 0 (1 / 2)],
    ∀ e' ∈ contents [.make (1 / 2 : ℚ), .ask 0, .change 0 (3 / 4), .ask 0, .change 0 (1 / 2)], pyHash e = pyHash e' → e = e' := by
  decide +kernel

-- the values CPython prints for hash(0.5), hash(-0.75), hash(1.0), hash(-1.0), hash(-2.0)
example : [pyHash (1 / 2), pyHash (-3 / 4), pyHash 1, pyHash (-1), pyHash (-2)]
    = [1152921504606846976, -1729382256910270464, 1, -2, -2] := by decide +kernel


/-- C40, refuted: a method taken from one solver and called after another solver's has been taken
computes for the other. -/
theorem C40_handle_refuted {I E R : Type} [DecidableEq E] (own : I → E) (fresh : I → MemoArgs E → Py R) (i j : I) (args : MemoArgs E) (r : R)
    (hr : fresh j args = .ok r) : ((((⟨none, []⟩ : Memo I E R).get i).get j).call own fresh args).1 = .ok r := by
  unfold Memo.call Memo.get
  dsimp only
  rw [hr]
  rfl

/-- Two models at 450 and 500 K with a barrier of 0.7 eV, and one model with barriers 0.7 and 0.8. -/
example : (0 : ℝ) ≤ 0.7 ∧ (0 : ℝ) < 450 ∧ (450 : ℝ) < 500 ∧ (0.7 : ℝ) < 0.8 := by norm_num

/-- A history with the energies of the model and others, on one model. -/
example : ∀ u ∈ [((⟨⟨[], 450, [], 0, 0, false⟩, .TST, ⟨some [], some [], some []⟩⟩ : CachedSolver),
      (⟨some none, none⟩ : MemoArgs (RelDict ℝ))),
      (⟨⟨[], 450, [], 0, 0, false⟩, .TST, ⟨some [], some [], some []⟩⟩, ⟨some (some ⟨some [1], some [1], none⟩), some true⟩)],
    u.1.owner = ⟨[], 450, [], 0, 0, false⟩ ∧ u.1.method = .TST ∧ u.2.energies ≠ none := by simp

/-! ## C41 Analysis plugins -/

section
variable {P : Type}

/-- C41, refuted: as long as no model has been given a list of its own, every model has all the
plugins registered on any model. -/
theorem C41_shared_refuted (regs : List (Nat × P)) (m : Nat) :
    (regs.foldl (fun h r => h.register r.1 r.2) AnalysisHeap.init).plugins m = some (regs.map (·.2)) := by
  have : ∀ (regs : List (Nat × P)) (h : AnalysisHeap P) (l : List P), h.lists = [l] → (∀ i, h.addr i = 0) →
      (regs.foldl (fun h r => h.register r.1 r.2) h).lists = [l ++ regs.map (·.2)] ∧
      ∀ i, (regs.foldl (fun h r => h.register r.1 r.2) h).addr i = 0 := by
    intro regs
    induction regs with
    | nil => intro h l h1 h2; exact ⟨by simpa using h1, h2⟩
    | cons r regs ih =>
      intro h l h1 h2
      rw [List.foldl_cons]
      obtain ⟨a, b⟩ := ih (h.register r.1 r.2) (l ++ [r.2]) (by unfold AnalysisHeap.register; rw [h1, h2]; rfl) (by
        intro i
        unfold AnalysisHeap.register AnalysisHeap.addr
        dsimp only
        by_cases hi : i = r.1
        · rw [if_pos hi]; exact h2 r.1
        · rw [if_neg hi]; exact h2 i)
      exact ⟨by rw [a]; simp, b⟩
  obtain ⟨h1, h2⟩ := this regs AnalysisHeap.init [] rfl (fun _ => rfl)
  unfold AnalysisHeap.plugins
  rw [h1, h2]
  rfl

/-- Registrations and assignments of new lists on any models; a failing assignment changes nothing. -/
inductive AnalysisOp (P : Type)
  | register (m : Nat) (p : P)
  | assign (m : Nat) (l : List P)

/-- The heap after an operation. -/
def AnalysisOp.apply (h : AnalysisHeap P) : AnalysisOp P → AnalysisHeap P
  | .register m p => h.register m p
  | .assign m l => match h.assign m l with | .ok h' => h' | .error _ => h

/-- The plugins registered on a model. -/
def registeredOn (m : Nat) (ops : List (AnalysisOp P)) : List P :=
  ops.filterMap fun o => match o with | .register i p => if i = m then some p else none | .assign _ _ => none

/-- No other model has the list of model `m`, which is a real list other than the default. -/
def OwnList (h : AnalysisHeap P) (m a : Nat) (l : List P) : Prop :=
  h.stored m = some a ∧ a ≠ 0 ∧ h.lists[a]? = some l ∧ ∀ i, h.stored i = some a → i = m

theorem ownList_step {h : AnalysisHeap P} {m a : Nat} {l : List P} (ho : OwnList h m a l) (op : AnalysisOp P) :
    OwnList (op.apply h) m a (l ++ registeredOn m [op]) := by
  obtain ⟨h1, h2, h3, h4⟩ := ho
  cases op with
  | register i p =>
    show OwnList (h.register i p) m a _
    unfold AnalysisHeap.register
    by_cases hi : i = m
    · subst hi
      have ha : h.addr i = a := by unfold AnalysisHeap.addr; rw [h1]; rfl
      rw [ha]
      refine ⟨by simp, h2, ?_, ?_⟩
      · simp [h3, registeredOn]
      · intro j hj
        dsimp only at hj
        by_cases hj' : j = i
        · exact hj'
        · rw [if_neg hj'] at hj; exact h4 j hj
    · have ha : h.addr i ≠ a := by
        unfold AnalysisHeap.addr
        cases hs : h.stored i with
        | none => exact fun e => h2 e.symm
        | some b =>
          intro e
          have e' : b = a := e
          rw [e'] at hs
          exact hi (h4 i hs)
      have hr : registeredOn m [AnalysisOp.register i p] = [] := by simp [registeredOn, hi]
      rw [hr, List.append_nil]
      refine ⟨?_, h2, ?_, ?_⟩
      · show (if m = i then some (h.addr i) else h.stored m) = _
        rw [if_neg (fun e => hi e.symm), h1]
      · show (h.lists.modify (h.addr i) _)[a]? = _
        rw [List.getElem?_modify, h3]; simp [ha]
      · intro j hj
        dsimp only at hj
        by_cases hj' : j = i
        · rw [if_pos hj'] at hj; exact absurd (Option.some.inj hj) ha
        · rw [if_neg hj'] at hj; exact h4 j hj
  | assign i l' =>
    have hr : registeredOn m [AnalysisOp.assign i l'] = [] := rfl
    rw [hr, List.append_nil]
    show OwnList (match h.assign i l' with | .ok h' => h' | .error _ => h) m a l
    unfold AnalysisHeap.assign
    cases hs : h.stored i with
    | some b => exact ⟨h1, h2, h3, h4⟩
    | none =>
      have hi : i ≠ m := by rintro rfl; rw [hs] at h1; cases h1
      have hlen : a < h.lists.length := (List.getElem?_eq_some_iff.mp h3).1
      refine ⟨?_, h2, ?_, ?_⟩
      · show (if m = i then _ else h.stored m) = _
        rw [if_neg (fun e => hi e.symm), h1]
      · show (h.lists ++ [l'])[a]? = _
        rw [List.getElem?_append_left hlen, h3]
      · intro j hj
        dsimp only at hj
        by_cases hj' : j = i
        · rw [if_pos hj'] at hj; have := Option.some.inj hj; omega
        · rw [if_neg hj'] at hj; exact h4 j hj

/-- C41, partial: a model that was given a list of its own before anything was registered on it
keeps exactly that list and its own plugins, whatever happens to other models. Missing: models
left with the default list (`C41_shared_refuted`). -/
theorem C41_own_partial (h : AnalysisHeap P) (hl : h.lists ≠ []) (hs : ∀ i a, h.stored i = some a → a < h.lists.length) (m : Nat)
    (l : List P) (h' : AnalysisHeap P) (ha : h.assign m l = .ok h') (ops : List (AnalysisOp P)) :
    (ops.foldl AnalysisOp.apply h').plugins m = some (l ++ registeredOn m ops) := by
  have ho : OwnList h' m h.lists.length l := by
    unfold AnalysisHeap.assign at ha
    cases hm : h.stored m with
    | some b => rw [hm] at ha; cases ha
    | none =>
      rw [hm] at ha
      cases ha
      refine ⟨by simp, by simpa using hl, by simp, ?_⟩
      intro i hi
      dsimp only at hi
      by_cases hi' : i = m
      · exact hi'
      · rw [if_neg hi'] at hi; have := hs i _ hi; omega
  have : ∀ (ops : List (AnalysisOp P)) (h : AnalysisHeap P) (l : List P), OwnList h m h'.lists.length.pred l →
      OwnList (ops.foldl AnalysisOp.apply h) m h'.lists.length.pred (l ++ registeredOn m ops) := by
    intro ops
    induction ops with
    | nil => intro h l ho; simpa [registeredOn] using ho
    | cons op ops ih =>
      intro h l ho
      rw [List.foldl_cons]
      have := ih _ _ (ownList_step ho op)
      have e : registeredOn m [op] ++ registeredOn m ops = registeredOn m (op :: ops) := by
        unfold registeredOn
        rw [← List.filterMap_append]; rfl
      rw [List.append_assoc, e] at this
      exact this
  have hlen : h'.lists.length.pred = h.lists.length := by
    unfold AnalysisHeap.assign at ha
    cases hm : h.stored m with
    | some b => rw [hm] at ha; cases ha
    | none => rw [hm] at ha; cases ha; simp
  rw [hlen] at this
  obtain ⟨h1, -, h3, -⟩ := this ops h' l ho
  unfold AnalysisHeap.plugins AnalysisHeap.addr
  rw [h1]
  exact h3

end

/-- Model 1 has its own list; a plugin on model 0 does not show, one on model 1 does. -/
example : ∃ h', (AnalysisHeap.init : AnalysisHeap Nat).assign 1 [] = .ok h' ∧
    ([AnalysisOp.register 0 7, .register 1 8].foldl AnalysisOp.apply h').plugins 1 = some [8] :=
  ⟨_, rfl, by decide⟩

/-! ### The theorems at these cases -/

example := C38_history (str! "MicroKineticModel") exTemperature [] rfl [.write (.str (str! "hot")), .write (.int 450), .write (.int 500)]

example := C38_valid (str! "MicroKineticModel") exTemperature [] rfl [.write (.str (str! "hot")), .write (.int 450), .write (.int 500)]

example := C38_once (str! "MicroKineticModel") exTemperature [(privateName (str! "MicroKineticModel") exTemperature.name, .int 450)] (w := .int 450)
  rfl (.int 500)

example := C38_assign_partial (str! "MicroKineticModel") exTemperature [] rfl [.write (.str (str! "hot"))] rfl (.int 450) rfl

example := C38_read_refuted (str! "MicroKineticModel") exTemperature [] rfl (.int 450) rfl

example := C38_others (str! "MicroKineticModel") exTemperature [] [.write (.int 450)] (str! "rxn_expressions") (by decide)

example := C40_cached_partial (I := Int) (E := Int) (R := Option (Option Int)) id (fun i a => .ok (memoKey id i a).1) (fun k => .ok k.1)
  [(1, ⟨none, none⟩), (2, ⟨some (some 5), some true⟩)] (fun _ _ => rfl) ⟨none, []⟩ (fun _ _ h => nomatch h) 3 ⟨none, none⟩ rfl

example := C40_same_model_partial ⟨[], 450, [], 0, 0, false⟩ .TST [((⟨⟨[], 450, [], 0, 0, false⟩, .TST, ⟨some [], some [], some []⟩⟩ : CachedSolver),
      (⟨some none, none⟩ : MemoArgs (RelDict ℝ)))]
    ⟨⟨[], 450, [], 0, 0, false⟩, .TST, ⟨some [], some [], some []⟩⟩ ⟨some (some ⟨some [1], some [1], none⟩), some true⟩ (by simp)

example := C40_temperature_refuted (str! "CO_g + *_s -> CO_s") 450 500 0.7 (by norm_num) (by norm_num) (by norm_num)

example := C40_absent_refuted (str! "CO_g + *_s -> CO_s") 450 0.7 0.8 (by norm_num) (by norm_num)

example := C40_in_place_partial pyHash (fun e => .ok (2 * e)) [.make (1 / 2 : ℚ), .ask 0, .change 0 (3 / 4), .ask 0, .change 0 (1 / 2)]
  (by decide +kernel) 0 (1 / 2) (by decide +kernel)

example := C40_in_place_refuted (fun _ _ _ => 0) (str! "CO_g + *_s -> CO_s") 450 (by norm_num)

example := C40_handle_refuted (I := Int) (E := Int) (R := Int) id (fun i _ => .ok i) 1 2 ⟨none, none⟩ 2 rfl

example (h' : AnalysisHeap Nat) (ha : (AnalysisHeap.init : AnalysisHeap Nat).assign 1 [] = .ok h') :=
  C41_own_partial AnalysisHeap.init (by simp [AnalysisHeap.init]) (by simp [AnalysisHeap.init]) 1 [] h' ha [.register 0 7, .register 1 8]

end Verif
