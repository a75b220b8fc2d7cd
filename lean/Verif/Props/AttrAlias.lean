import Verif.Model.AttrAlias
/-
C134: attributes of a model change only by assignment.
-/
namespace Verif

variable (copies : Bool) (check : PyVal → Py Unit)

/-- Every address kept has an object. -/
structure AttrHeap.Valid (h : AttrHeap) : Prop where
  nonempty : 0 < h.objs.length
  stored : ∀ i a, h.stored i = some a → a < h.objs.length

theorem AttrHeap.Valid.addr {h : AttrHeap} (hv : h.Valid) (m : Nat) : (h.stored m).getD 0 < h.objs.length := by
  cases hm : h.stored m with
  | none => exact hv.nonempty
  | some a => exact hv.stored m a hm

theorem AttrHeap.get_copies {h : AttrHeap} (hv : h.Valid) (m : Nat) : h.get true m =
    (⟨h.objs ++ [h.objs[(h.stored m).getD 0]'(hv.addr m)], fun i => if i = m then some ((h.stored m).getD 0) else h.stored i⟩, h.objs.length) := by
  unfold AttrHeap.get
  dsimp only
  rw [if_pos rfl, List.getElem?_eq_getElem (hv.addr m)]

theorem AttrHeap.get_same (h : AttrHeap) (m : Nat) : h.get false m =
    (⟨h.objs, fun i => if i = m then some ((h.stored m).getD 0) else h.stored i⟩, (h.stored m).getD 0) := rfl

/-- Whether or not the descriptor copies, reading gives the value of the object kept. -/
theorem AttrHeap.value_eq {h : AttrHeap} (hv : h.Valid) (m : Nat) : h.value copies m = h.objs[(h.stored m).getD 0]? := by
  unfold AttrHeap.value
  cases copies with
  | false => rw [AttrHeap.get_same]
  | true =>
    rw [AttrHeap.get_copies hv]
    dsimp only
    rw [List.getElem?_append_right (le_refl _), Nat.sub_self, List.getElem?_eq_getElem (hv.addr m)]
    rfl

theorem AttrHeap.assign_ok {h h' : AttrHeap} {m r : Nat} (ha : h.assign check m r = .ok h') :
    r < h.objs.length ∧ h.stored m = none ∧ h' = ⟨h.objs, fun i => if i = m then some r else h.stored i⟩ := by
  unfold AttrHeap.assign at ha
  cases hr : h.objs[r]? with
  | none => rw [hr] at ha; cases ha
  | some v =>
    rw [hr] at ha
    dsimp only [bind, Except.bind] at ha
    cases hc : check v with
    | error e => rw [hc] at ha; cases ha
    | ok u =>
      rw [hc] at ha
      cases hm : h.stored m with
      | some a => rw [hm] at ha; cases ha
      | none =>
        rw [hm] at ha
        exact ⟨(List.getElem?_eq_some_iff.mp hr).1, rfl, (Except.ok.inj ha).symm⟩

/-- A step keeps addresses valid, changes what is kept only from nothing to something, and objects only where it is told to. -/
theorem AttrHeap.step_spec {h : AttrHeap} (hv : h.Valid) (op : AliasOp) :
    (h.step copies check op).1.Valid ∧ h.objs.length ≤ (h.step copies check op).1.objs.length ∧
    (∀ i a, h.stored i = some a → (h.step copies check op).1.stored i = some a) ∧
    (∀ a v, h.objs[a]? = some v → (∀ w, op ≠ .change a w) → (h.step copies check op).1.objs[a]? = some v) := by
  have happ : ∀ v : PyVal, ∀ (a : Nat) (w : PyVal), h.objs[a]? = some w → (h.objs ++ [v])[a]? = some w := by
    intro v a w haw
    rw [List.getElem?_append_left (List.getElem?_eq_some_iff.mp haw).1]
    exact haw
  cases op with
  | make v =>
    refine ⟨⟨by simp [AttrHeap.step], fun i a hi => ?_⟩, by simp [AttrHeap.step], fun i a hi => hi, fun a w haw _ => happ v a w haw⟩
    have := hv.stored i a hi
    simp only [AttrHeap.step, List.length_append, List.length_singleton]
    omega
  | change r v =>
    refine ⟨⟨by simpa [AttrHeap.step] using hv.nonempty, fun i a hi => by simpa [AttrHeap.step] using hv.stored i a hi⟩, by simp [AttrHeap.step],
      fun i a hi => hi, fun a w haw hne => ?_⟩
    show (h.objs.set r v)[a]? = _
    rw [List.getElem?_set_ne (fun h' => hne v (by rw [h'])), haw]
  | read m =>
    have hst : ∀ i a, h.stored i = some a → (if i = m then some ((h.stored m).getD 0) else h.stored i) = some a := by
      intro i a hi
      split
      · rename_i him
        rw [← him, hi]
        rfl
      · exact hi
    have hval : ∀ i a, (if i = m then some ((h.stored m).getD 0) else h.stored i) = some a → a < h.objs.length := by
      intro i a hi
      split at hi
      · rw [← Option.some.inj hi]
        exact hv.addr m
      · exact hv.stored i a hi
    unfold AttrHeap.step
    dsimp only
    cases copies with
    | false =>
      rw [AttrHeap.get_same]
      exact ⟨⟨hv.nonempty, hval⟩, le_refl _, hst, fun a w haw _ => haw⟩
    | true =>
      rw [AttrHeap.get_copies hv]
      refine ⟨⟨by simp, fun i a hi => ?_⟩, by simp, hst, fun a w haw _ => happ _ a w haw⟩
      have := hval i a hi
      simp only [List.length_append, List.length_singleton]
      omega
  | assign m r =>
    unfold AttrHeap.step
    dsimp only
    cases ha : h.assign check m r with
    | error e => exact ⟨hv, le_refl _, fun i a hi => hi, fun a w haw _ => haw⟩
    | ok h' =>
      obtain ⟨h1, h2, rfl⟩ := AttrHeap.assign_ok check ha
      refine ⟨⟨hv.nonempty, fun i a hi => ?_⟩, le_refl _, fun i a hi => ?_, fun a w haw _ => haw⟩
      · dsimp only at hi
        split at hi
        · rw [← Option.some.inj hi]
          exact h1
        · exact hv.stored i a hi
      · dsimp only
        rw [if_neg (fun h' => by rw [h', h2] at hi; cases hi)]
        exact hi

/-- **C134** Part: an object that has been assigned, or the default once it has been read, is the attribute from then on, whatever else the user
does to this model and to others, as long as this one object is not changed in place. -/
theorem C134_kept_partial : ∀ (ops : List AliasOp) (h : AttrHeap) (held : List Nat) (m r : Nat) (v : PyVal), h.Valid →
    h.stored m = some r → h.objs[r]? = some v → (∀ w, .change r w ∉ ops) →
    (AttrHeap.run copies check (h, held) ops).1.value copies m = some v
  | [], h, held, m, r, v, hv, hm, hr, _ => by
    rw [AttrHeap.run, AttrHeap.value_eq copies hv, hm]
    exact hr
  | op :: ops, h, held, m, r, v, hv, hm, hr, hne => by
    rw [AttrHeap.run]
    dsimp only
    have hne' : ∀ w, .change r w ∉ ops := fun w hw => hne w (List.mem_cons_of_mem _ hw)
    split
    · obtain ⟨h1, -, h3, h4⟩ := AttrHeap.step_spec copies check hv op
      exact C134_kept_partial ops _ _ m r v h1 (h3 m r hm) (h4 r v hr fun w hw => hne w (by rw [hw]; simp)) hne'
    · exact C134_kept_partial ops h held m r v hv hm hr hne'

/-- **C134** Part: reading settles the attribute, also when it was the default that was read: the value got is the value from then on, unless this one
object is changed in place. -/
theorem C134_read_partial (ops : List AliasOp) (h : AttrHeap) (held : List Nat) (m : Nat) (v : PyVal) (hv : h.Valid) (hr : h.value copies m = some v)
    (hne : ∀ w, .change ((h.stored m).getD 0) w ∉ ops) :
    (AttrHeap.run copies check (h, held) (.read m :: ops)).1.value copies m = some v := by
  rw [AttrHeap.run, if_pos (show AliasOp.allowed held (.read m) = true from rfl)]
  obtain ⟨h1, -, -, h4⟩ := AttrHeap.step_spec copies check hv (.read m)
  rw [AttrHeap.value_eq copies hv] at hr
  refine C134_kept_partial copies check ops _ _ m ((h.stored m).getD 0) v h1 ?_ (h4 _ v hr fun w hw => by cases hw) hne
  unfold AttrHeap.step
  dsimp only
  cases copies with
  | false => rw [AttrHeap.get_same]; exact if_pos rfl
  | true => rw [AttrHeap.get_copies hv]; exact if_pos rfl

/-- **C134** An assignment is accepted exactly if the object passes the check and the attribute was neither assigned nor read before. Then the
attribute of this model is the object, and those of other models are as they were. -/
theorem C134_assign (h : AttrHeap) (m r : Nat) (v : PyVal) (hv : h.Valid) (hr : h.objs[r]? = some v) :
    ((∃ h', h.assign check m r = .ok h') ↔ check v = .ok () ∧ h.stored m = none) ∧
    (∀ h', h.assign check m r = .ok h' → h'.value copies m = some v ∧ ∀ m', m' ≠ m → h'.value copies m' = h.value copies m') ∧
    (check v = .ok () → h.stored m ≠ none → h.assign check m r = .error .AttributeError) := by
  refine ⟨⟨?_, ?_⟩, ?_, ?_⟩
  · rintro ⟨h', ha⟩
    refine ⟨?_, (AttrHeap.assign_ok check ha).2.1⟩
    unfold AttrHeap.assign at ha
    rw [hr] at ha
    dsimp only [bind, Except.bind] at ha
    cases hc : check v with
    | error e => rw [hc] at ha; cases ha
    | ok u => rfl
  · rintro ⟨hc, hm⟩
    refine ⟨⟨h.objs, fun i => if i = m then some r else h.stored i⟩, ?_⟩
    unfold AttrHeap.assign
    rw [hr]
    dsimp only [bind, Except.bind]
    rw [hc, hm]
    rfl
  · intro h' ha
    obtain ⟨h1, h2, rfl⟩ := AttrHeap.assign_ok check ha
    have hv' : AttrHeap.Valid ⟨h.objs, fun i => if i = m then some r else h.stored i⟩ := by
      refine ⟨hv.nonempty, fun i a hi => ?_⟩
      dsimp only at hi
      split at hi
      · rw [← Option.some.inj hi]
        exact h1
      · exact hv.stored i a hi
    refine ⟨?_, fun m' hm' => ?_⟩
    · rw [AttrHeap.value_eq copies hv']
      dsimp only
      rw [if_pos rfl]
      exact hr
    · rw [AttrHeap.value_eq copies hv', AttrHeap.value_eq copies hv]
      dsimp only
      rw [if_neg hm']
  · intro hc hm
    unfold AttrHeap.assign
    rw [hr]
    dsimp only [bind, Except.bind]
    rw [hc]
    cases hs : h.stored m with
    | none => exact absurd hs hm
    | some a => rfl

/-- Every object kept is the default or has passed the check. -/
def AttrHeap.Checked (d : PyVal) (h : AttrHeap) : Prop :=
  ∀ m, ∃ v, h.objs[(h.stored m).getD 0]? = some v ∧ (v = d ∨ check v = .ok ())

/-- **C134** Part: in every history in which no object is changed in place, attributes are the default or have passed the check. -/
theorem C134_checked_partial (d : PyVal) (ops : List AliasOp) (hne : ∀ r w, .change r w ∉ ops) (m : Nat) :
    ∃ v, (AttrHeap.run copies check (.init d, []) ops).1.value copies m = some v ∧ (v = d ∨ check v = .ok ()) := by
  have key : ∀ (ops : List AliasOp) (s : AttrHeap × List Nat), s.1.Valid → s.1.objs[0]? = some d → s.1.Checked check d → (∀ r w, .change r w ∉ ops) →
      ∃ v, (AttrHeap.run copies check s ops).1.value copies m = some v ∧ (v = d ∨ check v = .ok ()) := by
    intro ops
    induction ops with
    | nil =>
      rintro ⟨h, held⟩ hv - hc -
      rw [AttrHeap.run, AttrHeap.value_eq copies hv]
      exact hc m
    | cons op ops ih =>
      rintro ⟨h, held⟩ hv h0 hc hne
      have hne' : ∀ r w, .change r w ∉ ops := fun r w hw => hne r w (List.mem_cons_of_mem _ hw)
      rw [AttrHeap.run]
      split
      · obtain ⟨h1, -, h3, h4⟩ := AttrHeap.step_spec copies check hv op
        have h4' : ∀ (a : Nat) (v : PyVal), h.objs[a]? = some v → (h.step copies check op).1.objs[a]? = some v :=
          fun a v ha => h4 a v ha fun w hw => hne a w (by rw [hw]; simp)
        refine ih _ h1 (h4' 0 d h0) (fun i => ?_) hne'
        obtain ⟨v, hv1, hv2⟩ := hc i
        -- an address kept before stays; a new one is the default or has been checked
        cases hi : h.stored i with
        | some a =>
          rw [hi] at hv1
          exact ⟨v, by dsimp only; rw [h3 i a hi]; exact h4' a v hv1, hv2⟩
        | none =>
          dsimp only
          have h0' := h4' 0 d h0
          cases op with
          | make w => exact ⟨d, by show (h.objs ++ [w])[(h.stored i).getD 0]? = _; rw [hi]; exact h0', .inl rfl⟩
          | change r w => exact absurd (List.mem_cons_self ..) (hne r w)
          | read j =>
            refine ⟨d, ?_, .inl rfl⟩
            have : ((h.step copies check (.read j)).1.stored i).getD 0 = 0 := by
              unfold AttrHeap.step
              dsimp only
              cases copies with
              | false =>
                rw [AttrHeap.get_same]
                dsimp only
                split
                · rename_i hij
                  rw [← hij, hi]
                  rfl
                · rw [hi]; rfl
              | true =>
                rw [AttrHeap.get_copies hv]
                dsimp only
                split
                · rename_i hij
                  rw [← hij, hi]
                  rfl
                · rw [hi]; rfl
            rw [this]
            exact h0'
          | assign j r =>
            revert h0'
            unfold AttrHeap.step
            dsimp only
            cases ha : h.assign check j r with
            | error e => intro h0'; exact ⟨d, by rw [hi]; exact h0', .inl rfl⟩
            | ok h' =>
              intro h0'
              have hr : r < h.objs.length := (AttrHeap.assign_ok check ha).1
              have hck := ((C134_assign copies check h j r _ hv (List.getElem?_eq_getElem hr)).1.mp ⟨h', ha⟩).1
              obtain ⟨-, -, rfl⟩ := AttrHeap.assign_ok check ha
              dsimp only
              split
              · exact ⟨h.objs[r], List.getElem?_eq_getElem hr, .inr hck⟩
              · exact ⟨d, by rw [hi]; exact h0, .inl rfl⟩
      · exact ih _ hv h0 hc hne'
  exact key ops _ ⟨by simp [AttrHeap.init], by simp [AttrHeap.init]⟩ rfl (fun i => ⟨d, rfl, .inl rfl⟩) hne

/-- A list of equations made, assigned to a model and read, another list refused and a number refused: the hypotheses hold. -/
example : (∀ r w, .change r w ∉ ([.make (.list [.str (str! "CO_g + *_s -> CO_s")]), .assign 0 1, .make (.int 3), .assign 1 2, .read 0, .make (.list []), .assign 0 3]
      : List AliasOp)) ∧
    (AttrHeap.run false (sequenceCheck (some .str) none) (.init (.list []), [])
      [.make (.list [.str (str! "CO_g + *_s -> CO_s")]), .assign 0 1, .make (.int 3), .assign 1 2, .read 0, .make (.list []), .assign 0 3]).1.value false 0
      = some (.list [.str (str! "CO_g + *_s -> CO_s")]) ∧
    (AttrHeap.run false (sequenceCheck (some .str) none) (.init (.list []), [])
      [.make (.list [.str (str! "CO_g + *_s -> CO_s")]), .assign 0 1, .make (.int 3), .assign 1 2, .read 0, .make (.list []), .assign 0 3]).1.value false 1
      = some (.list []) := by
  refine ⟨by simp, rfl, rfl⟩

/-- **C134** A descriptor that copies (the definitions of species): what has been read can be changed in place without effect on any model. -/
theorem C134_copy (h : AttrHeap) (hv : h.Valid) (m m' : Nat) (w : PyVal) :
    (⟨(h.get true m).1.objs.set (h.get true m).2 w, (h.get true m).1.stored⟩ : AttrHeap).value true m' = h.value true m' := by
  have hv' : AttrHeap.Valid ⟨(h.get true m).1.objs.set (h.get true m).2 w, (h.get true m).1.stored⟩ := by
    have := (AttrHeap.step_spec true (fun _ => .ok ()) hv (.read m)).1
    exact ⟨by simpa [AttrHeap.step] using this.nonempty, fun i a hi => by simpa [AttrHeap.step] using this.stored i a hi⟩
  rw [AttrHeap.value_eq true hv', AttrHeap.value_eq true hv]
  rw [AttrHeap.get_copies hv]
  dsimp only
  have e : (if m' = m then some ((h.stored m).getD 0) else h.stored m').getD 0 = (h.stored m').getD 0 := by
    split
    · rename_i hm
      rw [hm]
      rfl
    · rfl
  rw [e, List.getElem?_set_ne (Nat.ne_of_gt (hv.addr m')), List.getElem?_append_left (hv.addr m')]

/-- The user does not hold the default, and it has not changed. -/
structure DefaultSafe (d : PyVal) (s : AttrHeap × List Nat) : Prop where
  valid : s.1.Valid
  default : s.1.objs[0]? = some d
  held : 0 ∉ s.2

/-- **C134** A descriptor that copies: in every history in which nothing is assigned to a model, its attribute is the default. -/
theorem C134_default (d : PyVal) (ops : List AliasOp) (m : Nat) (hm : ∀ r, .assign m r ∉ ops) :
    (AttrHeap.run true check (.init d, []) ops).1.value true m = some d := by
  have key : ∀ (ops : List AliasOp) (s : AttrHeap × List Nat), DefaultSafe d s → (∀ r, .assign m r ∉ ops) →
      (s.1.stored m = none ∨ s.1.stored m = some 0) → (AttrHeap.run true check s ops).1.value true m = some d := by
    intro ops
    induction ops with
    | nil =>
      rintro ⟨h, held⟩ hs - hst
      rw [AttrHeap.run, AttrHeap.value_eq true hs.valid]
      rcases hst with h1 | h1 <;> (dsimp only at h1; rw [h1]; exact hs.default)
    | cons op ops ih =>
      rintro ⟨h, held⟩ hs hm hst
      have hm' : ∀ r, .assign m r ∉ ops := fun r hr => hm r (List.mem_cons_of_mem _ hr)
      rw [AttrHeap.run]
      dsimp only
      split
      · rename_i hok
        obtain ⟨h1, -, h3, h4⟩ := AttrHeap.step_spec true check hs.valid op
        refine ih _ ⟨h1, h4 0 d hs.default ?_, ?_⟩ hm' ?_
        · rintro w rfl
          exact hs.held (of_decide_eq_true hok)
        · intro h0
          rcases List.mem_append.mp h0 with h0 | h0
          · exact hs.held h0
          · have hp := hs.valid.nonempty
            cases op with
            | make v => simp [AttrHeap.step] at h0; exact absurd h0.symm (by simpa using hp.ne')
            | change r v => simp [AttrHeap.step] at h0
            | read i =>
              simp only [AttrHeap.step, AttrHeap.get_copies hs.valid] at h0
              simp at h0
              exact absurd h0.symm (by simpa using hp.ne')
            | assign i r =>
              unfold AttrHeap.step at h0
              dsimp only at h0
              cases ha : h.assign check i r with
              | error e => rw [ha] at h0; simp at h0
              | ok h' => rw [ha] at h0; simp at h0
        · rcases hst with hst | hst
          · cases op with
            | make v => exact .inl hst
            | change r v => exact .inl hst
            | read i =>
              simp only [AttrHeap.step, AttrHeap.get_copies hs.valid]
              by_cases hi : m = i
              · rw [if_pos hi, ← hi]
                dsimp only at hst
                rw [hst]
                exact .inr rfl
              · rw [if_neg hi]
                exact .inl hst
            | assign i r =>
              have hi : m ≠ i := fun hi => hm r (by rw [hi]; simp)
              unfold AttrHeap.step
              dsimp only
              cases ha : h.assign check i r with
              | error e => exact .inl hst
              | ok h' =>
                obtain ⟨-, -, rfl⟩ := AttrHeap.assign_ok check ha
                dsimp only
                rw [if_neg hi]
                exact .inl hst
          · exact .inr (h3 m 0 hst)
      · exact ih _ hs hm' hst
  exact key ops _ ⟨⟨by simp [AttrHeap.init], by simp [AttrHeap.init]⟩, rfl, by simp⟩ hm (.inl rfl)

/-- **C134**, refuted: a descriptor that does not copy (all lists but the definitions of species) gives the default itself to whoever reads it. When
they change it in place, it is changed for every model, also for those made later, and nothing is checked. -/
theorem C134_default_refuted (d v : PyVal) (m m' : Nat) :
    (AttrHeap.run false check (.init d, []) [.read m, .change 0 v]).1.value false m' = some v := by
  simp only [AttrHeap.run, AliasOp.allowed, AttrHeap.step, AttrHeap.get_same, AttrHeap.init, AttrHeap.value, Option.getD_none, Option.toList, List.nil_append,
    List.mem_singleton, decide_true, if_true, List.set_cons_zero]
  by_cases h : m' = m <;> simp [h]

/-- **C134**, refuted: an object assigned is kept, not copied, also by descriptors that copy. When the user changes it later, the attribute changes and
nothing is checked. -/
theorem C134_assigned_refuted (d v w : PyVal) (m : Nat) (hv : check v = .ok ()) :
    (AttrHeap.run copies check (.init d, []) [.make v, .assign m 1, .change 1 w]).1.value copies m = some w := by
  have ha : AttrHeap.assign check ⟨[d, v], fun _ => none⟩ m 1 = .ok ⟨[d, v], fun i => if i = m then some 1 else none⟩ := by
    unfold AttrHeap.assign
    simp [hv, bind, Except.bind, pure, Except.pure]
  have : AttrHeap.run copies check (.init d, []) [.make v, .assign m 1, .change 1 w] = (⟨[d, w], fun i => if i = m then some 1 else none⟩, [1]) := by
    simp only [AttrHeap.run, AliasOp.allowed, AttrHeap.step, AttrHeap.init, Option.toList, List.nil_append, List.length_singleton, List.mem_singleton, decide_true, if_true,
      List.singleton_append, ha, List.append_nil]
    rfl
  rw [this, AttrHeap.value_eq]
  · simp
  · refine ⟨by simp, fun i a hi => ?_⟩
    dsimp only at hi
    split at hi
    · cases Option.some.inj hi
      simp
    · cases hi

/-- The equations of one model given to another as well, and a number put among them. -/
example : (AttrHeap.run false (sequenceCheck (some .str) none) (.init (.list []), [])
      [.make (.list [.str (str! "CO_g + *_s -> CO_s")]), .assign 0 1, .assign 1 1, .read 0, .change 1 (.list [.int 7])]).1.value false 1
      = some (.list [.int 7]) ∧ sequenceCheck (some .str) none (.list [.int 7]) = .error .ValueError := by
  constructor
  · rfl
  · rfl

/-- Definitions of species: another model reads its definitions and changes what it gets; they stay as they were. -/
example : (AttrHeap.run true speciesCheck (.init (.dict []), [])
      [.make (.dict [(.str (str! "CO_g"), .dict [(.str (str! "pressure"), .float 1)])]), .assign 0 1, .read 0, .change 2 (.dict []), .read 1, .change 3 (.int 1)]).1.value true 0
      = some (.dict [(.str (str! "CO_g"), .dict [(.str (str! "pressure"), .float 1)])]) ∧
    AttrHeap.Valid (.init (.dict [])) := by
  constructor
  · rfl
  · exact ⟨by simp [AttrHeap.init], by simp [AttrHeap.init]⟩

end Verif
