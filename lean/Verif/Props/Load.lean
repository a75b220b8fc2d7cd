import Verif.Model.Load
import Verif.Props.Descriptors
/- C63: loading a setup dictionary. -/
namespace Verif
open Dict

section
variable (attrs : Dict Str AttrKind) (cls : Str)

/-- The entry is one that the loop assigns. -/
def LoopSets (key : Str) (kind : AttrKind) : Prop := get? attrs key = some kind ∧ key ∉ laterKeys

/-- The value may be assigned to an attribute of that kind of a fresh instance. -/
def Assignable (inst : Dict Str PyVal) (v : PyVal) : AttrKind → Prop
  | .descr d => d.check v = .ok () ∧ get? inst (privateName cls d.name) = none
  | .component _ candidates => ∃ s, v = .str s ∧ s ∈ candidates
  | .readonly => False
  | .plain => True

/-- Different attributes are kept in different entries. -/
def SlotsApart : Prop := ∀ k k' kind kind', get? attrs k = some kind → get? attrs k' = some kind' →
  kind.slot cls k = kind'.slot cls k' → k = k'

theorem setAttr_ok {inst inst' : Dict Str PyVal} {key : Str} {v : PyVal} {kind : AttrKind} :
    setAttr cls key inst v kind = .ok inst' ↔ Assignable cls inst v kind ∧ inst' = inst.set (kind.slot cls key) v := by
  cases kind with
  | descr d =>
    show descrSet cls d inst v = .ok inst' ↔ _
    unfold descrSet
    cases hc : d.check v with
    | error e => exact ⟨fun h => (nomatch h), fun h => by have := h.1.1; rw [hc] at this; cases this⟩
    | ok u =>
      show (match get? inst (privateName cls d.name) with
        | none => pure (inst.set (privateName cls d.name) v)
        | some _ => .error .AttributeError : Py (Dict Str PyVal)) = .ok inst' ↔ _
      cases hg : get? inst (privateName cls d.name) with
      | none =>
        exact ⟨fun h => ⟨⟨hc, hg⟩, (Except.ok.inj h).symm⟩, fun h => by rw [h.2]; rfl⟩
      | some w => exact ⟨fun h => (nomatch h), fun h => by have := h.1.2; rw [hg] at this; cases this⟩
  | readonly => exact ⟨fun h => (nomatch h), fun h => h.1.elim⟩
  | component name cands =>
    show componentSet cls name cands inst v = .ok inst' ↔ _
    unfold componentSet
    split
    · rename_i s
      by_cases hs : s ∈ cands
      · rw [if_pos hs]
        exact ⟨fun h => ⟨⟨s, rfl, hs⟩, (Except.ok.inj h).symm⟩, fun h => by rw [h.2]; rfl⟩
      · rw [if_neg hs]
        refine ⟨fun h => (nomatch h), fun h => ?_⟩
        obtain ⟨s', e, h'⟩ := h.1
        cases e; exact absurd h' hs
    · rename_i hv
      refine ⟨fun h => (nomatch h), fun h => ?_⟩
      obtain ⟨s', e, h'⟩ := h.1
      exact absurd e (hv s')
  | plain => exact ⟨fun h => ⟨trivial, (Except.ok.inj h).symm⟩, fun h => by rw [h.2]; rfl⟩

theorem accepts_set {inst : Dict Str PyVal} {key : Str} {v w : PyVal} {kind : AttrKind} {s : Str} (h : s ≠ kind.slot cls key) :
    Assignable cls (inst.set s w) v kind ↔ Assignable cls inst v kind := by
  cases kind with
  | descr d =>
    show _ ∧ get? (inst.set s w) (privateName cls d.name) = none ↔ _
    rw [get?_set, if_neg (show ¬ s = privateName cls d.name from h)]; rfl
  | readonly => rfl
  | component n c => rfl
  | plain => rfl

/-- C63: the loop succeeds exactly when every recognised entry can be assigned to the instance as
it was. Then each recognised key has the value given for it and nothing else has changed, whatever
the unrecognised keys are. -/
theorem C63_loop (hs : SlotsApart attrs cls) : ∀ (setup : List (Str × PyVal)), (setup.map (·.1)).Nodup →
    ∀ (inst : Dict Str PyVal), 
    ((∃ inst', loadLoop attrs cls inst setup = .ok inst') ↔
      ∀ k v kind, (k, v) ∈ setup → LoopSets attrs k kind → Assignable cls inst v kind) ∧
    ∀ inst', loadLoop attrs cls inst setup = .ok inst' →
      (∀ k v kind, (k, v) ∈ setup → LoopSets attrs k kind → get? inst' (kind.slot cls k) = some v) ∧
      (∀ s, (∀ k v kind, (k, v) ∈ setup → LoopSets attrs k kind → kind.slot cls k ≠ s) → get? inst' s = get? inst s)
  | [], _, inst => by
    refine ⟨⟨fun _ k v kind h => (nomatch h), fun _ => ⟨inst, rfl⟩⟩, fun inst' h => ?_⟩
    cases h
    exact ⟨fun k v kind h => (nomatch h), fun s _ => rfl⟩
  | (key, v) :: rest, hn, inst => by
    have hn' : (rest.map (·.1)).Nodup := (List.nodup_cons.mp hn).2
    have hk : ∀ v', (key, v') ∉ rest := fun v' h => (List.nodup_cons.mp hn).1 (List.mem_map.mpr ⟨_, h, rfl⟩)
    -- an entry that is not assigned changes nothing
    have skip : (∀ kind, ¬ LoopSets attrs key kind) → loadLoop attrs cls inst ((key, v) :: rest) = loadLoop attrs cls inst rest := by
      intro h
      show (match get? attrs key with | none => _ | some kind => _) = _
      cases ha : get? attrs key with
      | none => rfl
      | some kind =>
        have : key ∈ laterKeys := by
          by_contra hl
          exact h kind ⟨ha, hl⟩
        exact if_pos this
    by_cases hA : ∃ kind, LoopSets attrs key kind
    · obtain ⟨kind, hkind⟩ := hA
      have step : loadLoop attrs cls inst ((key, v) :: rest) = (do
          let inst ← setAttr cls key inst v kind
          loadLoop attrs cls inst rest) := by
        show (match get? attrs key with | none => _ | some kind => _) = _
        rw [hkind.1]
        exact if_neg hkind.2
      have apart : ∀ k' v' kind', (k', v') ∈ rest → LoopSets attrs k' kind' → kind.slot cls key ≠ kind'.slot cls k' := by
        intro k' v' kind' hm ha e
        have := hs _ _ _ _ hkind.1 ha.1 e
        subst this
        exact hk _ hm
      obtain ⟨ih1, ih2⟩ := C63_loop hs rest hn' (inst.set (kind.slot cls key) v)
      rw [step]
      constructor
      · constructor
        · rintro ⟨inst', h⟩
          obtain ⟨i1, h1, h2⟩ := bind_ok.mp h
          obtain ⟨hacc, rfl⟩ := (setAttr_ok cls).mp h1
          intro k' v' kind' hm ha
          rcases List.mem_cons.mp hm with e | hm
          · cases e
            have : kind' = kind := Option.some.inj (ha.1.symm.trans hkind.1)
            rw [this]; exact hacc
          · exact (accepts_set cls (apart k' v' kind' hm ha)).mp (ih1.mp ⟨_, h2⟩ k' v' kind' hm ha)
        · intro h
          have hacc := h key v kind List.mem_cons_self hkind
          obtain ⟨inst', h'⟩ := ih1.mpr (fun k' v' kind' hm ha =>
            (accepts_set cls (apart k' v' kind' hm ha)).mpr (h k' v' kind' (List.mem_cons_of_mem _ hm) ha))
          exact ⟨inst', bind_ok.mpr ⟨_, (setAttr_ok cls).mpr ⟨hacc, rfl⟩, h'⟩⟩
      · intro inst' h
        obtain ⟨i1, h1, h2⟩ := bind_ok.mp h
        obtain ⟨hacc, rfl⟩ := (setAttr_ok cls).mp h1
        obtain ⟨a, b⟩ := ih2 inst' h2
        constructor
        · intro k' v' kind' hm ha
          rcases List.mem_cons.mp hm with e | hm
          · cases e
            have : kind' = kind := Option.some.inj (ha.1.symm.trans hkind.1)
            rw [this, b _ (fun k'' v'' kind'' hm'' ha'' => (apart k'' v'' kind'' hm'' ha'').symm), get?_set, if_pos rfl]
          · exact a k' v' kind' hm ha
        · intro s hne
          rw [b s (fun k' v' kind' hm ha => hne k' v' kind' (List.mem_cons_of_mem _ hm) ha), get?_set,
            if_neg (hne key v kind List.mem_cons_self hkind)]
    · have hA' : ∀ kind, ¬ LoopSets attrs key kind := fun kind h => hA ⟨kind, h⟩
      obtain ⟨ih1, ih2⟩ := C63_loop hs rest hn' inst
      rw [skip hA']
      constructor
      · rw [ih1]
        constructor
        · intro h k' v' kind' hm ha
          rcases List.mem_cons.mp hm with e | hm
          · cases e; exact absurd ha (hA' _)
          · exact h k' v' kind' hm ha
        · exact fun h k' v' kind' hm ha => h k' v' kind' (List.mem_cons_of_mem _ hm) ha
      · intro inst' h
        obtain ⟨a, b⟩ := ih2 inst' h
        constructor
        · intro k' v' kind' hm ha
          rcases List.mem_cons.mp hm with e | hm
          · cases e; exact absurd ha (hA' _)
          · exact a k' v' kind' hm ha
        · exact fun s hne => b s (fun k' v' kind' hm ha => hne k' v' kind' (List.mem_cons_of_mem _ hm) ha)

/-- Two instances that give the same for every name. -/
def SameAttrs (a b : Dict Str PyVal) : Prop := ∀ s, get? a s = get? b s

/-- The loop gives the same instance for every order of the entries. -/
theorem loadLoop_perm (hs : SlotsApart attrs cls) {setup setup' : List (Str × PyVal)} (hp : setup.Perm setup')
    (hn : (setup.map (·.1)).Nodup) {inst i : Dict Str PyVal} (h : loadLoop attrs cls inst setup = .ok i) :
    ∃ i', loadLoop attrs cls inst setup' = .ok i' ∧ SameAttrs i i' := by
  have hn' : (setup'.map (·.1)).Nodup := (hp.map _).nodup_iff.mp hn
  obtain ⟨a1, a2⟩ := C63_loop attrs cls hs setup hn inst
  obtain ⟨b1, b2⟩ := C63_loop attrs cls hs setup' hn' inst
  obtain ⟨i', hi'⟩ := b1.mpr (fun k v kind hm ha => a1.mp ⟨i, h⟩ k v kind (hp.mem_iff.mpr hm) ha)
  refine ⟨i', hi', fun s => ?_⟩
  obtain ⟨a3, a4⟩ := a2 i h
  obtain ⟨b3, b4⟩ := b2 i' hi'
  by_cases hex : ∃ k v kind, (k, v) ∈ setup ∧ LoopSets attrs k kind ∧ kind.slot cls k = s
  · obtain ⟨k, v, kind, hm, ha, rfl⟩ := hex
    rw [a3 k v kind hm ha, b3 k v kind (hp.mem_iff.mp hm) ha]
  · push Not at hex
    rw [a4 s hex, b4 s (fun k v kind hm ha => hex k v kind (hp.mem_iff.mpr hm) ha)]

theorem SameAttrs.set {a b : Dict Str PyVal} (h : SameAttrs a b) (s : Str) (v : PyVal) : SameAttrs (a.set s v) (b.set s v) := by
  intro t
  rw [get?_set, get?_set]
  split
  · rfl
  · exact h t

theorem descrGet_same {a b : Dict Str PyVal} (h : SameAttrs a b) (d : Descr) :
    (descrGet cls d a).1 = (descrGet cls d b).1 ∧ SameAttrs (descrGet cls d a).2 (descrGet cls d b).2 := by
  unfold descrGet
  rw [h (privateName cls d.name)]
  cases get? b (privateName cls d.name) with
  | some v => exact ⟨rfl, h⟩
  | none => exact ⟨rfl, h.set _ _⟩

theorem get?_perm {A B : Type} [DecidableEq A] {l l' : Dict A B} (hp : l.Perm l') (hn : (l.map (·.1)).Nodup) (k : A) :
    get? l k = get? l' k := by
  have hn' : (l'.map (·.1)).Nodup := (hp.map _).nodup_iff.mp hn
  cases h : get? l k with
  | some v => exact (get?_of_mem hn' (hp.mem_iff.mp (mem_of_get? h))).symm
  | none =>
    cases h' : get? l' k with
    | none => rfl
    | some v => rw [get?_of_mem hn (hp.mem_iff.mpr (mem_of_get? h'))] at h; cases h

theorem componentSet_same {a b a' : Dict Str PyVal} (h : SameAttrs a b) {name : Str} {cands : List Str} {v : PyVal}
    (ha : componentSet cls name cands a v = .ok a') :
    ∃ b', componentSet cls name cands b v = .ok b' ∧ SameAttrs a' b' := by
  unfold componentSet at ha ⊢
  cases v with
  | str s =>
    dsimp only at ha ⊢
    by_cases hs : s ∈ cands
    · rw [if_pos hs] at ha ⊢
      cases ha
      exact ⟨_, rfl, h.set _ _⟩
    · rw [if_neg hs] at ha; cases ha
  | _ => cases ha

theorem buildSolver_same {m n m' : Loaded} {d1 d2 d3 : Descr} {name : Str} (h : SameAttrs m.inst n.inst) (hnet : m.net = n.net)
    (hm : buildSolver cls d1 d2 d3 m name = .ok m') :
    ∃ n', buildSolver cls d1 d2 d3 n name = .ok n' ∧ SameAttrs m'.inst n'.inst ∧ m'.net = n'.net := by
  unfold buildSolver at hm ⊢
  dsimp only at hm ⊢
  by_cases hname : name = str! "SteadyStateSolver"
  · rw [if_pos hname] at hm ⊢
    obtain ⟨e1, e2⟩ := descrGet_same cls h d1
    rw [← e1, ← hnet]
    cases hmn : m.net with
    | none => rw [hmn] at hm; cases hm
    | some net =>
      rw [hmn] at hm
      dsimp only at hm ⊢
      by_cases hr : (descrGet cls d1 m.inst).1.isMpmath = true
      · rw [if_pos hr] at hm ⊢
        rw [if_pos hr] at hm ⊢
        obtain ⟨c, hc, hm⟩ := bind_ok.mp hm
        cases hm
        exact ⟨_, bind_ok.mpr ⟨c, hc, rfl⟩, (descrGet_same cls (descrGet_same cls e2 d2).2 d3).2, rfl⟩
      · rw [if_neg hr] at hm; cases hm
  · rw [if_neg hname] at hm ⊢
    cases hm
    exact ⟨n, rfl, h, hnet⟩

/-- C63: a setup that loads, loads in every order of its entries and gives the same attributes
and the same reactions. -/
theorem C63_order (hs : SlotsApart attrs cls) (a : LoadAttrs) (inst : Dict Str PyVal) {setup setup' : Dict Str PyVal}
    (hp : setup.Perm setup') (hn : (setup.map (·.1)).Nodup) {m : Loaded} (h : load attrs cls a inst setup = .ok m) :
    ∃ m', load attrs cls a inst setup' = .ok m' ∧ SameAttrs m.inst m'.inst ∧ m.net = m'.net := by
  unfold load at h ⊢
  obtain ⟨i1, h1, h⟩ := bind_ok.mp h
  obtain ⟨i2, h2, h⟩ := bind_ok.mp h
  obtain ⟨j1, g1, s1⟩ := loadLoop_perm attrs cls hs hp hn h1
  have hpar : ∃ j2, setParser cls a.parsers j1 setup' = .ok j2 ∧ SameAttrs i2 j2 := by
    unfold setParser at h2 ⊢
    rw [← get?_perm hp hn]
    cases hv : get? setup (str! "parser") with
    | none => rw [hv] at h2; cases h2
    | some v =>
      rw [hv] at h2
      obtain ⟨i3, h3, h2⟩ := bind_ok.mp h2
      obtain ⟨j3, g3, s3⟩ := componentSet_same cls s1 h3
      dsimp only at h2 ⊢
      refine ⟨j3, bind_ok.mpr ⟨j3, g3, ?_⟩, ?_⟩
      · rw [← s1]
        cases hsd : get? i1 (privateName cls (str! "species_definitions")) with
        | none => rw [hsd] at h2; cases h2
        | some w => rfl
      · cases hsd : get? i1 (privateName cls (str! "species_definitions")) with
        | none => rw [hsd] at h2; cases h2
        | some w => rw [hsd] at h2; cases h2; exact s3
  obtain ⟨j2, g2, s2⟩ := hpar
  obtain ⟨e1, e2⟩ := descrGet_same cls s2 a.exprs
  obtain ⟨texts, h3, h⟩ := bind_ok.mp h
  obtain ⟨m1, h4, h⟩ := bind_ok.mp h
  have hm1 : ∃ n1, parseExprs (descrGet cls a.exprs j2).2 texts = .ok n1 ∧ SameAttrs m1.inst n1.inst ∧ m1.net = n1.net := by
    unfold parseExprs at h4 ⊢
    by_cases ht : texts = []
    · rw [if_pos ht] at h4 ⊢
      cases h4
      exact ⟨_, rfl, e2, rfl⟩
    · rw [if_neg ht] at h4 ⊢
      obtain ⟨n, hn', h4⟩ := bind_ok.mp h4
      cases h4
      exact ⟨_, bind_ok.mpr ⟨n, hn', rfl⟩, e2, rfl⟩
  obtain ⟨n1, g4, s4, n4⟩ := hm1
  suffices hfin : ∃ m', setSolver cls a n1 (get? setup' (str! "solver")) = .ok m' ∧ SameAttrs m.inst m'.inst ∧ m.net = m'.net by
    obtain ⟨m', hm', r⟩ := hfin
    exact ⟨m', bind_ok.mpr ⟨j1, g1, bind_ok.mpr ⟨j2, g2, bind_ok.mpr ⟨texts, by rw [← e1]; exact h3, bind_ok.mpr ⟨n1, g4, hm'⟩⟩⟩⟩, r⟩
  rw [← get?_perm hp hn]
  unfold setSolver at h ⊢
  cases hv : get? setup (str! "solver") with
  | none => rw [hv] at h; cases h; exact ⟨_, rfl, s4, n4⟩
  | some v =>
    rw [hv] at h
    cases v with
    | str s =>
      dsimp only at h ⊢
      by_cases hsol : s ∈ a.solvers
      · rw [if_pos hsol] at h ⊢
        obtain ⟨m2, h5, h⟩ := bind_ok.mp h
        cases h
        obtain ⟨n2, g5, s5, n5⟩ := buildSolver_same cls s4 n4 h5
        exact ⟨_, bind_ok.mpr ⟨n2, g5, rfl⟩, s5.set _ _, n5⟩
      · rw [if_neg hsol] at h; cases h
    | _ => cases h

/-- C63: without a parser a setup whose entries can be assigned raises `ParameterError`; no setup
loads without one. -/
theorem C63_parser (a : LoadAttrs) (inst : Dict Str PyVal) (setup : Dict Str PyVal) (hno : get? setup (str! "parser") = none) :
    (∀ i, loadLoop attrs cls inst setup = .ok i → load attrs cls a inst setup = .error .ParameterError) ∧
    ∀ m, load attrs cls a inst setup ≠ .ok m := by
  have key : ∀ i, loadLoop attrs cls inst setup = .ok i → load attrs cls a inst setup = .error .ParameterError := by
    intro i h
    unfold load setParser
    rw [h, hno]
    rfl
  refine ⟨key, fun m h => ?_⟩
  obtain ⟨i1, h1, -⟩ := bind_ok.mp h
  rw [key i1 h1] at h
  cases h

end

/-! ## The class of mean-field models -/

/-- C63: the attributes of `MicroKineticModel` are kept in different entries. -/
theorem C63_slots : SlotsApart microAttrs microName := by
  intro k k' kind kind' h h' e
  have : ∀ p ∈ microAttrs, ∀ q ∈ microAttrs, p.2.slot microName p.1 = q.2.slot microName q.1 → p.1 = q.1 := by
    have := (by decide +kernel : (microAttrs.map fun p => p.2.slot microName p.1).Nodup)
    intro p hp q hq e
    have := List.inj_on_of_nodup_map this hp hq e
    rw [this]
  exact this _ (mem_of_get? h) _ (mem_of_get? h') e

/-- C63, refuted: a logging level in the setup is a recognised key with an accepted value, but it
has been assigned before loading, so loading raises. -/
theorem C63_level_refuted (setup : Dict Str PyVal) (l f c z : Int) (v0 : Dict Str PyVal) (hk : (setup.map (·.1)).Nodup)
    (hz : (str! "logger_level", .int z) ∈ setup) (m : Loaded) :
    load microAttrs microName microLoad (microInit l f c v0) setup ≠ .ok m := by
  intro h
  obtain ⟨i1, h1, -⟩ := bind_ok.mp h
  have := ((C63_loop microAttrs microName C63_slots setup hk (microInit l f c v0)).1.mp ⟨i1, h1⟩) _ _
    (.descr (intDescr (str! "logger_level") 20 (some levelCand))) hz ⟨rfl, by decide +kernel⟩
  have h2 : get? (microInit l f c v0) (privateName microName (str! "logger_level")) = some (.int l) := rfl
  have h3 := this.2
  rw [show (intDescr (str! "logger_level") 20 (some levelCand)).name = str! "logger_level" from rfl, h2] at h3
  cases h3

/-- C63, refuted: species definitions are needed although they have a default. -/
theorem C63_species_refuted (setup : Dict Str PyVal) (l f c : Int) (v0 : Dict Str PyVal) (hk : (setup.map (·.1)).Nodup)
    (hno : get? setup (str! "species_definitions") = none) (m : Loaded) :
    load microAttrs microName microLoad (microInit l f c v0) setup ≠ .ok m := by
  intro h
  obtain ⟨i1, h1, h⟩ := bind_ok.mp h
  obtain ⟨i2, h2, -⟩ := bind_ok.mp h
  have hslot : get? i1 (privateName microName (str! "species_definitions")) = none := by
    rw [((C63_loop microAttrs microName C63_slots setup hk (microInit l f c v0)).2 i1 h1).2 _ ?_]
    · rfl
    · intro k v kind hm ha e
      have := C63_slots k (str! "species_definitions") kind (.descr ⟨str! "species_definitions", speciesCheck, .dict []⟩) ha.1
        rfl e
      subst this
      rw [get?_of_mem hk hm] at hno
      cases hno
  unfold setParser at h2
  cases hp : get? setup (str! "parser") with
  | none => rw [hp] at h2; cases h2
  | some v =>
    rw [hp] at h2
    obtain ⟨i3, -, h2⟩ := bind_ok.mp h2
    rw [hslot] at h2
    cases h2

/-- C63, refuted: `sympy` is an accepted representation of numbers, but no solver for steady states
can be built with it. -/
theorem C63_sympy_refuted (setup : Dict Str PyVal) (l f c : Int) (v0 : Dict Str PyVal) (hk : (setup.map (·.1)).Nodup)
    (hr : (str! "numerical_representation", .str (str! "sympy")) ∈ setup)
    (hsol : get? setup (str! "solver") = some (.str (str! "SteadyStateSolver"))) (m : Loaded) :
    numRepDescr.check (.str (str! "sympy")) = .ok () ∧ load microAttrs microName microLoad (microInit l f c v0) setup ≠ .ok m := by
  refine ⟨rfl, fun h => ?_⟩
  obtain ⟨i1, h1, h⟩ := bind_ok.mp h
  obtain ⟨i2, h2, h⟩ := bind_ok.mp h
  obtain ⟨texts, h3, h⟩ := bind_ok.mp h
  obtain ⟨m1, h4, h⟩ := bind_ok.mp h
  have hi1 : get? i1 (privateName microName numRepDescr.name) = some (.str (str! "sympy")) :=
    ((C63_loop microAttrs microName C63_slots setup hk (microInit l f c v0)).2 i1 h1).1 _ _ (.descr numRepDescr) hr
      ⟨rfl, by decide +kernel⟩
  have hi2 : get? i2 (privateName microName numRepDescr.name) = some (.str (str! "sympy")) := by
    unfold setParser at h2
    cases hp : get? setup (str! "parser") with
    | none => rw [hp] at h2; cases h2
    | some v =>
      rw [hp] at h2
      obtain ⟨i3, h5, h2⟩ := bind_ok.mp h2
      have : i3 = i2 := by
        cases hsd : get? i1 (privateName microName (str! "species_definitions")) with
        | none => rw [hsd] at h2; cases h2
        | some w => rw [hsd] at h2; cases h2; rfl
      subst this
      obtain ⟨-, rfl⟩ := (setAttr_ok microName (key := []) (kind := .component (str! "parser") microLoad.parsers)).mp h5
      rw [get?_set, if_neg (by decide +kernel), hi1]
  have hm1 : get? m1.inst (privateName microName numRepDescr.name) = some (.str (str! "sympy")) := by
    have hg : get? (descrGet microName microLoad.exprs i2).2 (privateName microName numRepDescr.name) = some (.str (str! "sympy")) := by
      unfold descrGet
      cases hx : get? i2 (privateName microName microLoad.exprs.name) with
      | some w => exact hi2
      | none =>
        dsimp only
        rw [get?_set, if_neg (by decide +kernel), hi2]
    unfold parseExprs at h4
    by_cases ht : texts = []
    · rw [if_pos ht] at h4; cases h4; exact hg
    · rw [if_neg ht] at h4
      obtain ⟨n, -, h4⟩ := bind_ok.mp h4
      cases h4; exact hg
  rw [hsol] at h
  unfold setSolver at h
  dsimp only at h
  rw [if_pos (by decide +kernel)] at h
  obtain ⟨m2, h5, -⟩ := bind_ok.mp h
  unfold buildSolver at h5
  dsimp only at h5
  rw [if_pos rfl] at h5
  have hd : descrGet microName microLoad.numRep m1.inst = (.str (str! "sympy"), m1.inst) := by
    unfold descrGet
    rw [show microLoad.numRep = numRepDescr from rfl, hm1]
  rw [hd] at h5
  cases hnet : m1.net with
  | none => rw [hnet] at h5; cases h5
  | some n => rw [hnet] at h5; cases h5

/-- A setup for oxidation of CO with an unknown key. -/
def exSetup : Dict Str PyVal :=
  [(str! "rxn_expressions", .list [.str (str! "CO_g + *_s -> CO_s")]),
   (str! "colour", .str (str! "red")),
   (str! "species_definitions", .dict [(.str (str! "CO_g"), .dict [(.str (str! "pressure"), .float 1)]),
     (.str (str! "*_s"), .dict [(.str (str! "site_name"), .str (str! "top")), (.str (str! "type"), .str (str! "site")), (.str (str! "total"), .float 1)])]),
   (str! "temperature", .int 450),
   (str! "parser", .str (str! "RelativeEnergyParser")),
   (str! "solver", .str (str! "SteadyStateSolver"))]

/-- It loads, and the temperature is the one given. -/
example : ∃ m, load microAttrs microName microLoad (microInit 20 10 20 exSetup) exSetup = .ok m ∧
    get? m.inst (privateName microName (str! "temperature")) = some (.int 450) ∧
    (m.net.map fun n => n.ads) = some [str! "CO_s"] ∧ (exSetup.map (·.1)).Nodup := by
  have h : (match load microAttrs microName microLoad (microInit 20 10 20 exSetup) exSetup with
      | .ok m => (match get? m.inst (privateName microName (str! "temperature")) with | some (.int z) => decide (z = 450) | _ => false) &&
        decide ((m.net.map fun n => n.ads) = some [str! "CO_s"])
      | .error _ => false) = true := by decide +kernel
  split at h
  · rename_i m hm
    rw [Bool.and_eq_true] at h
    refine ⟨m, hm, ?_, of_decide_eq_true h.2, by decide +kernel⟩
    have h1 := h.1
    split at h1
    · rename_i z hz; rw [hz, of_decide_eq_true h1]
    · cases h1
  · cases h

/-- The setups of the refutations: with a logging level, without species definitions, with `sympy`. -/
example : (((str! "logger_level", PyVal.int 30) :: exSetup).map (·.1)).Nodup ∧
    get? [(str! "parser", PyVal.str (str! "KMCParser"))] (str! "species_definitions") = none ∧
    (((str! "numerical_representation", PyVal.str (str! "sympy")) :: exSetup).map (·.1)).Nodup ∧
    get? ((str! "numerical_representation", PyVal.str (str! "sympy")) :: exSetup) (str! "solver") = some (.str (str! "SteadyStateSolver")) :=
  ⟨by decide +kernel, rfl, by decide +kernel, rfl⟩

/-- C63: the logging levels accepted are the multiples of ten from 0 to 50, as whole numbers. -/
theorem C63_levels (v : PyVal) : (intDescr (str! "logger_level") 20 (some levelCand)).check v = .ok () ↔
    ∃ z : Int, v = .int z ∧ 10 ∣ z ∧ 0 ≤ z ∧ z ≤ 50 := by
  constructor
  · intro h
    cases v <;> try (cases h)
    rename_i z
    refine ⟨z, rfl, ?_⟩
    have hc : levelCand (.int z) = true := by
      by_contra hn
      have : (intDescr (str! "logger_level") 20 (some levelCand)).check (.int z) ≠ .ok () := by
        simp [intDescr, typeCheck, PyVal.type, checkCandidates, hn]
      exact this h
    simp only [levelCand, decide_eq_true_eq, List.mem_cons, List.not_mem_nil, or_false] at hc
    omega
  · rintro ⟨z, rfl, h1, h2, h3⟩
    have hc : levelCand (.int z) = true := by
      simp only [levelCand, decide_eq_true_eq, List.mem_cons, List.not_mem_nil, or_false]
      omega
    simp [intDescr, typeCheck, PyVal.type, checkCandidates, hc]

/-- C63: parser and solver are not assigned where they stand in the setup but after everything else:
without those two keys the loop does the same. -/
theorem C63_components_later (attrs : Dict Str AttrKind) (cls : Str) (inst : Dict Str PyVal) (setup : List (Str × PyVal)) :
    loadLoop attrs cls inst setup =
      loadLoop attrs cls inst (setup.filter fun e => e.1 ≠ str! "parser" ∧ e.1 ≠ str! "solver") := by
  induction setup generalizing inst with
  | nil => rfl
  | cons e rest ih =>
    obtain ⟨key, v⟩ := e
    by_cases hk : key ≠ str! "parser" ∧ key ≠ str! "solver"
    · rw [List.filter_cons_of_pos (by simpa using hk)]
      conv_lhs => unfold loadLoop
      conv_rhs => unfold loadLoop
      cases get? attrs key with
      | none => exact ih inst
      | some kind =>
        dsimp only
        split
        · exact ih inst
        · cases setAttr cls key inst v kind with
          | error e => rfl
          | ok i => exact ih i
    · rw [List.filter_cons_of_neg (by simpa using hk), ← ih inst]
      have hl : key ∈ laterKeys := by
        unfold laterKeys
        simp only [List.mem_cons, List.not_mem_nil, or_false]
        by_contra hn
        exact hk ⟨fun h => hn (Or.inl h), fun h => hn (Or.inr h)⟩
      conv_lhs => unfold loadLoop
      cases get? attrs key with
      | none => rfl
      | some kind => exact if_pos hl

/-! ### The theorems at these cases -/

example := C63_loop microAttrs microName C63_slots exSetup (by decide +kernel) (microInit 20 10 20 exSetup)

example := C63_parser microAttrs microName microLoad (microInit 20 10 20 []) [(str! "temperature", .int 450)] rfl

example (m : Loaded) := C63_level_refuted ((str! "logger_level", .int 30) :: exSetup) 20 10 20 30 exSetup (by decide +kernel) (by simp) m

example (m : Loaded) := C63_species_refuted [(str! "parser", .str (str! "KMCParser"))] 20 10 20 [] (by decide) rfl m

example (m : Loaded) := C63_sympy_refuted ((str! "numerical_representation", .str (str! "sympy")) :: exSetup) 20 10 20 exSetup (by decide +kernel) (by simp) rfl m

example : ∃ m m', load microAttrs microName microLoad (microInit 20 10 20 exSetup) exSetup = .ok m ∧
    load microAttrs microName microLoad (microInit 20 10 20 exSetup) exSetup.reverse = .ok m' ∧ m.net = m'.net := by
  have h : (load microAttrs microName microLoad (microInit 20 10 20 exSetup) exSetup).isOk = true := by decide +kernel
  cases hm : load microAttrs microName microLoad (microInit 20 10 20 exSetup) exSetup with
  | error e => rw [hm] at h; cases h
  | ok m =>
    obtain ⟨m', h1, _, h2⟩ := C63_order microAttrs microName C63_slots microLoad (microInit 20 10 20 exSetup) (List.reverse_perm exSetup).symm (by decide +kernel) hm
    exact ⟨m, m', rfl, h1, h2⟩

end Verif
