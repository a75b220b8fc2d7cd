import Verif.Model.Checks
import Verif.Model.Network
import Verif.Lemmas.Py
import Verif.Lemmas.Network
import Mathlib.Tactic.NormNum
import Mathlib.Tactic.Linarith
/-
C47-C50: checks of setup values and the lattice.
-/
namespace Verif
open Dict

/-- A list or a tuple with the given entries. -/
def IsSeq (v : PyVal) (l : List PyVal) : Prop := v = .list l ∨ v = .tuple l

theorem seq?_some {v : PyVal} {l : List PyVal} : v.seq? = some l ↔ IsSeq v l := by
  cases v <;> simp [PyVal.seq?, IsSeq]

theorem checkSequence_ok {v : PyVal} {p : PyVal → Bool} {l : List PyVal} :
    checkSequence v p = .ok l ↔ IsSeq v l ∧ ∀ x ∈ l, p x = true := by
  unfold checkSequence
  cases h : v.seq? with
  | none =>
    constructor
    · intro e; exact nomatch e
    · rintro ⟨e, _⟩
      rw [seq?_some.mpr e] at h; exact nomatch h
  | some k =>
    rw [seq?_some] at h
    dsimp only
    have key : IsSeq v l ↔ k = l := by
      rcases h with rfl | rfl <;> simp [IsSeq]
    rw [key]
    split
    · rename_i ha
      constructor
      · intro e; cases e; exact ⟨rfl, List.all_eq_true.mp ha⟩
      · rintro ⟨rfl, _⟩; rfl
    · rename_i ha
      constructor
      · intro e; exact nomatch e
      · rintro ⟨rfl, h2⟩; exact absurd (List.all_eq_true.mpr h2) ha

/-- Everything that is not accepted is a `SetupError`. -/
def OnlySetup {α : Type _} (x : Py α) : Prop := ∀ e, x = .error e → e = .SetupError

theorem onlySetup_bind {α β : Type _} {x : Py α} {f : α → Py β} (hx : OnlySetup x) (hf : ∀ a, OnlySetup (f a)) :
    OnlySetup (x >>= f) := by
  intro e h
  rcases bind_error.mp h with h | ⟨a, _, h⟩
  · exact hx e h
  · exact hf a e h

theorem onlySetup_ok {α : Type _} (a : α) : OnlySetup (.ok a : Py α) := fun _ h => nomatch h

theorem onlySetup_ite {α : Type _} {c : Prop} [Decidable c] {x : Py α} (hx : OnlySetup x) :
    OnlySetup (if c then (.error .SetupError : Py α) else x) := by
  intro e h
  split at h
  · cases h; rfl
  · exact hx e h

theorem onlySetup_mapM {α β : Type} {f : α → Py β} (hf : ∀ a, OnlySetup (f a)) : ∀ l : List α, OnlySetup (l.mapM f)
  | [] => onlySetup_ok _
  | a :: l => by
    rw [List.mapM_cons]
    exact onlySetup_bind (hf a) fun b => onlySetup_bind (onlySetup_mapM hf l) fun _ => onlySetup_ok _

theorem onlySetup_sequence (v : PyVal) (p : PyVal → Bool) : OnlySetup (checkSequence v p) := by
  intro e h
  unfold checkSequence at h
  split at h
  · cases h; rfl
  · split at h
    · exact nomatch h
    · cases h; rfl

/-! ## C47 -/

/-- A point of a process. -/
abbrev Point := Rat × Rat × Rat

/-- Points that differ by more than the tolerance in a component. -/
def Apart (a b : Point) : Prop :=
  |a.1 - b.1| > 1 / 1000000 ∨ |a.2.1 - b.2.1| > 1 / 1000000 ∨ |a.2.2 - b.2.2| > 1 / 1000000

/-- A point written as a list of three floats. -/
def Point.val (p : Point) : PyVal := .list [.float p.1, .float p.2.1, .float p.2.2]

/-- A well formed process definition: a text for the reaction, groups of pairwise different points,
texts before and after for every point of each group, integers for the basis sites. -/
def WellFormed (d : Dict Str PyVal) : Prop :=
  ∃ (reaction : Str) (groups : List (List Point)) (before after : List Str) (basis : List PyVal)
    (vg vb va vs : PyVal),
    get? d (str! "reaction") = some (.str reaction) ∧
    get? d (str! "coordinates_group") = some vg ∧ IsSeq vg (groups.map fun g => .list (g.map Point.val)) ∧
    get? d (str! "elements_before") = some vb ∧ IsSeq vb (before.map .str) ∧
    get? d (str! "elements_after") = some va ∧ IsSeq va (after.map .str) ∧
    get? d (str! "basis_sites") = some vs ∧ IsSeq vs basis ∧
    (∀ b ∈ basis, (∃ z, b = .int z) ∨ ∃ t, b = .bool t) ∧
    ∀ g ∈ groups, g.Pairwise Apart ∧ before.length = g.length ∧ after.length = g.length

theorem exists_map {α β : Type} {f : β → α} : ∀ {l : List α}, (∀ x ∈ l, ∃ y, x = f y) → ∃ m : List β, l = m.map f
  | [], _ => ⟨[], rfl⟩
  | x :: l, h => by
    obtain ⟨y, rfl⟩ := h x (by simp)
    obtain ⟨m, rfl⟩ := exists_map (l := l) fun z hz => h z (by simp [hz])
    exact ⟨y :: m, rfl⟩

theorem checkCoordinate_ok {c : PyVal} {u : Unit} (hc : c.isList = true) :
    checkCoordinate c = .ok u ↔ ∃ p : Point, c = p.val := by
  unfold checkCoordinate
  constructor
  · intro h
    obtain ⟨l, h1, h2⟩ := bind_ok.mp h
    obtain ⟨h3, h4⟩ := checkSequence_ok.mp h1
    obtain ⟨h5, -⟩ := guard_ok.mp h2
    have hl : c = .list l := by
      rcases h3 with rfl | rfl
      · rfl
      · simp [PyVal.isList] at hc
    obtain ⟨m, rfl⟩ := exists_map (f := PyVal.float) (l := l) fun x hx => by
      have := h4 x hx
      cases x <;> simp [PyVal.isFloat] at this
      exact ⟨_, rfl⟩
    match m, h5 with
    | [x, y, z], _ => exact ⟨(x, y, z), hl⟩
    | [], h | [_], h | [_, _], h => simp at h
    | _ :: _ :: _ :: _ :: _, h => simp at h
  · rintro ⟨p, rfl⟩
    rfl

theorem coordsEqual_val (a b : Point) : coordsEqual a.val.items b.val.items = true ↔ ¬ Apart a b := by
  obtain ⟨a1, a2, a3⟩ := a
  obtain ⟨b1, b2, b3⟩ := b
  simp only [Point.val, PyVal.items, coordsEqual, Apart]
  by_cases h : |a1 - b1| > 1 / 1000000
  · rw [if_pos h]; simp only [h, Bool.false_eq_true, true_or, not_true]
  rw [if_neg h]
  by_cases h' : |a2 - b2| > 1 / 1000000
  · rw [if_pos h']; simp only [h', Bool.false_eq_true, true_or, or_true, not_true]
  rw [if_neg h']
  by_cases h'' : |a3 - b3| > 1 / 1000000
  · rw [if_pos h'']; simp only [h'', Bool.false_eq_true, or_true, not_true]
  rw [if_neg h'']
  simp only [h, h', h'', or_self, not_false_iff]

theorem checkProcessCoordinates_ok : ∀ {g : List Point} {u : Unit},
    checkProcessCoordinates (g.map Point.val) = .ok u ↔ g.Pairwise Apart
  | [], _ => by simp [checkProcessCoordinates]
  | p :: g, u => by
    rw [List.map_cons, checkProcessCoordinates, guard_ok, checkProcessCoordinates_ok (g := g),
      List.pairwise_cons]
    refine and_congr ?_ Iff.rfl
    rw [Bool.not_eq_true, List.any_eq_false]
    simp only [List.mem_map, forall_exists_index, and_imp, forall_apply_eq_imp_iff₂, coordsEqual_val, not_not]

theorem checkCoordinates_ok {v : PyVal} {u : Unit} (hv : v.isList = true) :
    checkCoordinates v = .ok u ↔ ∃ g : List Point, v = .list (g.map Point.val) ∧ g.Pairwise Apart := by
  unfold checkCoordinates
  constructor
  · intro h
    obtain ⟨l, h1, h2⟩ := bind_ok.mp h
    obtain ⟨us, h3, h4⟩ := bind_ok.mp h2
    obtain ⟨h5, h6⟩ := checkSequence_ok.mp h1
    have hl : v = .list l := by
      rcases h5 with rfl | rfl
      · rfl
      · simp [PyVal.isList] at hv
    obtain ⟨m, rfl⟩ := exists_map (f := Point.val) (l := l) fun x hx => by
      obtain ⟨y, _, hy⟩ := (mapM_ok_mem h3).2 x hx
      exact (checkCoordinate_ok (h6 x hx)).mp hy
    exact ⟨m, hl, checkProcessCoordinates_ok.mp h4⟩
  · rintro ⟨g, rfl, hg⟩
    refine bind_ok.mpr ⟨g.map Point.val, checkSequence_ok.mpr ⟨Or.inl rfl, ?_⟩, ?_⟩
    · intro x hx
      obtain ⟨p, _, rfl⟩ := List.mem_map.mp hx
      rfl
    · obtain ⟨k, hk⟩ := mapM_ok_exists (f := checkCoordinate) (l := g.map Point.val) fun x hx => by
        obtain ⟨p, _, rfl⟩ := List.mem_map.mp hx
        exact ⟨(), rfl⟩
      exact bind_ok.mpr ⟨k, hk, checkProcessCoordinates_ok.mpr hg⟩

theorem checkElements_ok {v : PyVal} {groups : List (List Point)} {u : Unit} :
    checkElements v (groups.map fun g => .list (g.map Point.val)) = .ok u ↔
      ∃ es : List Str, IsSeq v (es.map .str) ∧ ∀ g ∈ groups, es.length = g.length := by
  have key : ∀ n : Nat, ((groups.map fun g => PyVal.list (g.map Point.val)).any fun g => n != g.items.length) = false
      ↔ ∀ g ∈ groups, n = g.length := by
    intro n
    rw [List.any_eq_false]
    simp [PyVal.items]
  unfold checkElements
  constructor
  · intro h
    obtain ⟨l, h1, h2⟩ := bind_ok.mp h
    obtain ⟨h3, h4⟩ := checkSequence_ok.mp h1
    obtain ⟨h5, -⟩ := guard_ok.mp h2
    rw [Bool.not_eq_true, key] at h5
    obtain ⟨m, rfl⟩ := exists_map (f := PyVal.str) (l := l) fun x hx => by
      have := h4 x hx
      cases x <;> simp [PyVal.isStr] at this
      exact ⟨_, rfl⟩
    exact ⟨m, h3, fun g hg => by simpa using h5 g hg⟩
  · rintro ⟨es, h1, h2⟩
    refine bind_ok.mpr ⟨es.map .str, checkSequence_ok.mpr ⟨h1, ?_⟩, ?_⟩
    · intro x hx
      obtain ⟨p, _, rfl⟩ := List.mem_map.mp hx
      rfl
    · refine guard_ok.mpr ⟨?_, rfl⟩
      rw [Bool.not_eq_true, key]
      simpa using h2

theorem procGet_ok {d : Dict Str PyVal} {k : Str} {v : PyVal} : procGet d k = .ok v ↔ get? d k = some v := by
  unfold procGet
  cases get? d k <;> simp

/-- Exactly the well formed process definitions are accepted; they are returned as they are, and
everything else is rejected with a `SetupError`. -/
theorem C47_process_dict (d : Dict Str PyVal) :
    (WellFormed d → checkProcessDict d = .ok d) ∧
    (¬ WellFormed d → checkProcessDict d = .error .SetupError) := by
  have only : OnlySetup (checkProcessDict d) := by
    have hget : ∀ k, OnlySetup (procGet d k) := by
      intro k e h
      unfold procGet at h
      split at h
      · exact nomatch h
      · cases h; rfl
    have hpc : ∀ l, OnlySetup (checkProcessCoordinates l) := by
      intro l
      induction l with
      | nil => exact onlySetup_ok _
      | cons c l ih => exact onlySetup_ite ih
    unfold checkProcessDict
    refine onlySetup_bind (hget _) fun r => onlySetup_bind (hget _) fun g => onlySetup_bind (hget _) fun b =>
      onlySetup_bind (hget _) fun a => onlySetup_bind (hget _) fun s => onlySetup_ite ?_
    refine onlySetup_bind (onlySetup_sequence _ _) fun gs => onlySetup_bind (onlySetup_mapM ?_ _) fun _ =>
      onlySetup_bind (onlySetup_bind (onlySetup_sequence _ _) fun _ => onlySetup_ite (onlySetup_ok _)) fun _ =>
      onlySetup_bind (onlySetup_bind (onlySetup_sequence _ _) fun _ => onlySetup_ite (onlySetup_ok _)) fun _ =>
      onlySetup_bind (onlySetup_sequence _ _) fun _ => onlySetup_ok _
    intro v
    exact onlySetup_bind (onlySetup_sequence _ _) fun l => onlySetup_bind
      (onlySetup_mapM (fun c => onlySetup_bind (onlySetup_sequence _ _) fun _ => onlySetup_ite (onlySetup_ok _)) _)
      fun _ => hpc _
  have iff : ∀ d', checkProcessDict d = .ok d' ↔ d = d' ∧ WellFormed d := by
    intro d'
    unfold checkProcessDict
    constructor
    · intro h
      obtain ⟨vr, h1, h⟩ := bind_ok.mp h
      obtain ⟨vg, h2, h⟩ := bind_ok.mp h
      obtain ⟨vb, h3, h⟩ := bind_ok.mp h
      obtain ⟨va, h4, h⟩ := bind_ok.mp h
      obtain ⟨vs, h5, h⟩ := bind_ok.mp h
      obtain ⟨hr, h⟩ := guard_ok.mp h
      obtain ⟨gs, h6, h⟩ := bind_ok.mp h
      obtain ⟨us, h7, h⟩ := bind_ok.mp h
      obtain ⟨u1, h8, h⟩ := bind_ok.mp h
      obtain ⟨u2, h9, h'⟩ := bind_ok.mp h
      obtain ⟨bs, h10, h''⟩ := bind_ok.mp h'
      rw [procGet_ok] at h1 h2 h3 h4 h5
      rw [checkSequence_ok] at h6 h10
      obtain ⟨r, rfl⟩ : ∃ r, vr = .str r := by
        cases vr <;> simp [PyVal.isStr] at hr
        exact ⟨_, rfl⟩
      have each : ∀ v ∈ gs, ∃ g : List Point, v = .list (g.map Point.val) ∧ g.Pairwise Apart := fun v hv => by
        obtain ⟨y, _, hy⟩ := (mapM_ok_mem h7).2 v hv
        exact (checkCoordinates_ok (h6.2 v hv)).mp hy
      obtain ⟨groups, rfl⟩ := exists_map (f := fun g : List Point => PyVal.list (g.map Point.val)) (l := gs)
        fun v hv => by
          obtain ⟨g, hg, _⟩ := each v hv
          exact ⟨g, hg⟩
      obtain ⟨before, hb1, hb2⟩ := checkElements_ok.mp h8
      obtain ⟨after, ha1, ha2⟩ := checkElements_ok.mp h9
      have inj : ∀ (a b : List Point), a.map Point.val = b.map Point.val → a = b := by
        intro a b hab
        refine List.map_injective_iff.mpr ?_ hab
        rintro ⟨x, y, z⟩ ⟨x', y', z'⟩ e
        simp [Point.val] at e
        simp [e]
      refine ⟨pure_ok.mp h'', r, groups, before, after, bs, vg, vb, va, vs, h1, h2, h6.1, h3, hb1, h4, ha1, h5, h10.1,
        ?_, ?_⟩
      · intro b hb
        have := h10.2 b hb
        cases b <;> simp [PyVal.isInt] at this ⊢
      · intro g hg
        refine ⟨?_, hb2 g hg, ha2 g hg⟩
        obtain ⟨g', e, hp⟩ := each _ (List.mem_map.mpr ⟨g, hg, rfl⟩)
        injection e with e
        rw [inj _ _ e]; exact hp
    · rintro ⟨rfl, r, groups, before, after, bs, vg, vb, va, vs, h1, h2, hg, h3, hb, h4, ha, h5, hs, hi, hall⟩
      obtain ⟨us, hus⟩ := mapM_ok_exists (f := checkCoordinates)
          (l := groups.map fun g => PyVal.list (g.map Point.val)) fun x hx => by
        obtain ⟨g, hgm, rfl⟩ := List.mem_map.mp hx
        exact ⟨(), (checkCoordinates_ok rfl).mpr ⟨g, rfl, (hall g hgm).1⟩⟩
      refine bind_ok.mpr ⟨_, procGet_ok.mpr h1, bind_ok.mpr ⟨_, procGet_ok.mpr h2, bind_ok.mpr ⟨_, procGet_ok.mpr h3,
        bind_ok.mpr ⟨_, procGet_ok.mpr h4, bind_ok.mpr ⟨_, procGet_ok.mpr h5, guard_ok.mpr ⟨by simp [PyVal.isStr], ?_⟩⟩⟩⟩⟩⟩
      refine bind_ok.mpr ⟨_, checkSequence_ok.mpr ⟨hg, ?_⟩, bind_ok.mpr ⟨us, hus, ?_⟩⟩
      · intro x hx
        obtain ⟨g, _, rfl⟩ := List.mem_map.mp hx
        rfl
      · refine bind_ok.mpr ⟨(), checkElements_ok.mpr ⟨before, hb, fun g hg => (hall g hg).2.1⟩,
          bind_ok.mpr ⟨(), checkElements_ok.mpr ⟨after, ha, fun g hg => (hall g hg).2.2⟩,
          bind_ok.mpr ⟨bs, checkSequence_ok.mpr ⟨hs, ?_⟩, rfl⟩⟩⟩
        intro b hb
        rcases hi b hb with ⟨z, rfl⟩ | ⟨t, rfl⟩ <;> rfl
  refine ⟨fun h => (iff d).mpr ⟨rfl, h⟩, fun h => ?_⟩
  cases hc : checkProcessDict d with
  | ok d' => exact absurd ((iff d').mp hc).2 h
  | error e => rw [only e hc]

/-- A diffusion between two points in two groups. -/
def exProc (y : Rat) : Dict Str PyVal :=
  [(str! "reaction", .str (str! "CO_s + *_t -> CO_t + *_s")),
   (str! "coordinates_group", .list [.list [Point.val (0, 0, 0), Point.val (1 / 2, y, 0)],
      .list [Point.val (0, 0, 0), Point.val (0, 1 / 2, 0)]]),
   (str! "elements_before", .list [.str (str! "C"), .str (str! "V")]),
   (str! "elements_after", .tuple [.str (str! "V"), .str (str! "C")]),
   (str! "basis_sites", .list [.int 0])]

example : WellFormed (exProc 0) := by
  refine ⟨str! "CO_s + *_t -> CO_t + *_s", [[(0, 0, 0), (1 / 2, 0, 0)], [(0, 0, 0), (0, 1 / 2, 0)]],
    [str! "C", str! "V"], [str! "V", str! "C"], [.int 0], _, _, _, _, rfl, rfl, Or.inl rfl, rfl, Or.inl rfl, rfl,
    Or.inr rfl, rfl, Or.inl rfl, ?_, ?_⟩
  · intro b hb
    simp only [List.mem_singleton] at hb
    exact Or.inl ⟨0, hb⟩
  · intro g hg
    simp only [List.mem_cons, List.not_mem_nil, or_false] at hg
    rcases hg with rfl | rfl <;> simp [Apart] <;> norm_num

/-- A missing key is a case of the second part. -/
example : ¬ WellFormed ((exProc 0).tail) := by
  rintro ⟨r, _, _, _, _, _, _, _, _, h, _⟩
  exact nomatch h

/-! ## C48 -/

/-- An entry of a list of intervals that is accepted: an integer or start, end and step with the
step within the span. -/
def IntervalShape (v : PyVal) : Prop :=
  (∃ z, v = .int z) ∨ ∃ a b s : Int, IsSeq v [.int a, .int b, .int s] ∧ a ≤ b ∧ s ≤ b - a

theorem checkInterval_cases (v : PyVal) :
    (IntervalShape v ∧ checkInterval v = .ok ()) ∨ (¬ IntervalShape v ∧ checkInterval v = .error .SetupError) := by
  have seqCase : ∀ l : List PyVal, (v.seq? = some l) → (∀ z, v ≠ .int z) →
      (IntervalShape v ∧ checkInterval v = .ok ()) ∨ (¬ IntervalShape v ∧ checkInterval v = .error .SetupError) := by
    intro l hl hz
    have hs := seq?_some.mp hl
    have shape : IntervalShape v ↔ ∃ a b s : Int, l = [.int a, .int b, .int s] ∧ a ≤ b ∧ s ≤ b - a := by
      constructor
      · rintro (⟨z, rfl⟩ | ⟨a, b, s, h, h1⟩)
        · exact absurd rfl (hz z)
        · refine ⟨a, b, s, ?_, h1⟩
          have := seq?_some.mpr h
          rw [hl] at this; exact Option.some.inj this
      · rintro ⟨a, b, s, rfl, h1⟩
        exact Or.inr ⟨a, b, s, hs, h1⟩
    have step : checkInterval v = (if l.length ≠ 3 then .error .SetupError else checkTriple l) := by
      rcases hs with rfl | rfl <;> rfl
    rw [step, shape]
    clear step shape hs hl hz
    by_cases h3 : l.length ≠ 3
    · right
      rw [if_pos h3]
      refine ⟨?_, rfl⟩
      rintro ⟨a, b, s, rfl, _⟩
      exact h3 rfl
    rw [if_neg h3]
    unfold checkTriple
    split
    · rename_i a b s
      by_cases h1 : b < a
      · right
        rw [if_pos h1]
        refine ⟨?_, rfl⟩
        rintro ⟨a', b', s', e, h4, _⟩
        simp at e; omega
      · rw [if_neg h1]
        by_cases h2 : s > b - a
        · right
          rw [if_pos h2]
          refine ⟨?_, rfl⟩
          rintro ⟨a', b', s', e, _, h4⟩
          simp at e; omega
        · left
          rw [if_neg h2]
          exact ⟨⟨a, b, s, rfl, by omega, by omega⟩, rfl⟩
    · rename_i hn
      right
      refine ⟨?_, rfl⟩
      rintro ⟨a, b, s, e, _⟩
      exact hn a b s e
  have other : v.seq? = none → (∀ z, v ≠ .int z) → checkInterval v = .error .SetupError →
      (IntervalShape v ∧ checkInterval v = .ok ()) ∨ (¬ IntervalShape v ∧ checkInterval v = .error .SetupError) := by
    intro hn hz he
    refine Or.inr ⟨?_, he⟩
    rintro (⟨z, rfl⟩ | ⟨a, b, s, h, _⟩)
    · exact hz z rfl
    · rw [seq?_some.mpr h] at hn; exact nomatch hn
  cases v with
  | int z => exact Or.inl ⟨Or.inl ⟨z, rfl⟩, rfl⟩
  | list l => exact seqCase l rfl fun _ h => nomatch h
  | tuple l => exact seqCase l rfl fun _ h => nomatch h
  | none => exact other rfl (fun _ h => nomatch h) rfl
  | bool b => exact other rfl (fun _ h => nomatch h) rfl
  | float q => exact other rfl (fun _ h => nomatch h) rfl
  | str s => exact other rfl (fun _ h => nomatch h) rfl
  | dict d => exact other rfl (fun _ h => nomatch h) rfl

/-- What is accepted, exactly; everything else is a `SetupError`. With positive numbers every
triple has a sampling point after its start within the range. Missing: that the numbers are
positive, which is not checked (`C48_zero_refuted`). -/
theorem C48_interval_partial (v : PyVal) :
    (checkAnalysisInterval v = .ok () ↔
      (∃ z, v = .int z) ∨ ∃ l, IsSeq v l ∧ ∀ x ∈ l, (∃ z, x = .int z) ∨
        ∃ a b s : Int, IsSeq x [.int a, .int b, .int s] ∧ a ≤ b ∧ a + s ≤ b) ∧
    (checkAnalysisInterval v ≠ .ok () → checkAnalysisInterval v = .error .SetupError) := by
  have shapeIff : ∀ x, IntervalShape x ↔ ((∃ z, x = .int z) ∨
        ∃ a b s : Int, IsSeq x [.int a, .int b, .int s] ∧ a ≤ b ∧ a + s ≤ b) := by
    intro x
    unfold IntervalShape
    refine or_congr Iff.rfl ⟨?_, ?_⟩
    · rintro ⟨a, b, s, h, h1, h2⟩; exact ⟨a, b, s, h, h1, by omega⟩
    · rintro ⟨a, b, s, h, h1, h2⟩; exact ⟨a, b, s, h, h1, by omega⟩
  simp only [← shapeIff]
  have loop : ∀ l : List PyVal, ((∀ x ∈ l, IntervalShape x) ∧ ∃ k, l.mapM checkInterval = .ok k) ∨
      (¬ (∀ x ∈ l, IntervalShape x) ∧ l.mapM checkInterval = .error .SetupError) := by
    intro l
    induction l with
    | nil => exact Or.inl ⟨by simp, [], rfl⟩
    | cons x l ih =>
      rcases checkInterval_cases x with ⟨h1, h2⟩ | ⟨h1, h2⟩
      · rcases ih with ⟨h3, k, h4⟩ | ⟨h3, h4⟩
        · exact Or.inl ⟨by simpa using ⟨h1, h3⟩, () :: k, by rw [List.mapM_cons, h2, h4]; rfl⟩
        · refine Or.inr ⟨fun h => h3 fun y hy => h y (by simp [hy]), ?_⟩
          rw [List.mapM_cons, h2, h4]; rfl
      · refine Or.inr ⟨fun h => h1 (h x (by simp)), ?_⟩
        rw [List.mapM_cons, h2]; rfl
  have seqCase : ∀ l : List PyVal, v.seq? = some l → (∀ z, v ≠ .int z) →
      (checkAnalysisInterval v = do let _ ← l.mapM checkInterval; pure ()) →
      (checkAnalysisInterval v = .ok () ↔ (∃ z, v = .int z) ∨ ∃ l, IsSeq v l ∧ ∀ x ∈ l, IntervalShape x) ∧
      (checkAnalysisInterval v ≠ .ok () → checkAnalysisInterval v = .error .SetupError) := by
    intro l hl hz he
    have iff : ((∃ z, v = .int z) ∨ ∃ l, IsSeq v l ∧ ∀ x ∈ l, IntervalShape x) ↔ ∀ x ∈ l, IntervalShape x := by
      constructor
      · rintro (⟨z, rfl⟩ | ⟨l', h, h'⟩)
        · exact absurd rfl (hz z)
        · rw [← seq?_some, hl] at h; cases h; exact h'
      · exact fun h => Or.inr ⟨l, seq?_some.mp hl, h⟩
    rw [iff, he]
    rcases loop l with ⟨h1, k, h2⟩ | ⟨h1, h2⟩
    · rw [h2]; exact ⟨⟨fun _ => h1, fun _ => rfl⟩, fun h => absurd rfl h⟩
    · rw [h2]; exact ⟨⟨fun h => (nomatch h), fun h => absurd h h1⟩, fun _ => rfl⟩
  have other : v.seq? = none → (∀ z, v ≠ .int z) → checkAnalysisInterval v = .error .SetupError →
      (checkAnalysisInterval v = .ok () ↔ (∃ z, v = .int z) ∨ ∃ l, IsSeq v l ∧ ∀ x ∈ l, IntervalShape x) ∧
      (checkAnalysisInterval v ≠ .ok () → checkAnalysisInterval v = .error .SetupError) := by
    intro hn hz he
    refine ⟨⟨fun h => ?_, ?_⟩, fun _ => he⟩
    · rw [he] at h; exact nomatch h
    · rintro (⟨z, rfl⟩ | ⟨l, h, _⟩)
      · exact absurd rfl (hz z)
      · rw [seq?_some.mpr h] at hn; exact nomatch hn
  cases v with
  | int z => exact ⟨⟨fun _ => Or.inl ⟨z, rfl⟩, fun _ => rfl⟩, fun h => absurd rfl h⟩
  | list l => exact seqCase l rfl (fun _ h => nomatch h) rfl
  | tuple l => exact seqCase l rfl (fun _ h => nomatch h) rfl
  | none => exact other rfl (fun _ h => nomatch h) rfl
  | bool b => exact other rfl (fun _ h => nomatch h) rfl
  | float q => exact other rfl (fun _ h => nomatch h) rfl
  | str s => exact other rfl (fun _ h => nomatch h) rfl
  | dict d => exact other rfl (fun _ h => nomatch h) rfl

example : checkAnalysisInterval (.list [.int 10, .tuple [.int 0, .int 100, .int 5]]) = .ok () := rfl
example : checkAnalysisInterval (.list [.tuple [.int 0, .int 4, .int 5]]) = .error .SetupError := rfl
example : checkAnalysisInterval (.bool true) = .error .SetupError := rfl

/-- No interval needs to be positive: any integer is accepted, and so are zero and negative steps. -/
theorem C48_zero_refuted : (∀ z : Int, checkAnalysisInterval (.int z) = .ok ()) ∧
    ∀ a b s : Int, a ≤ b → s ≤ 0 → checkAnalysisInterval (.list [.tuple [.int a, .int b, .int s]]) = .ok () := by
  refine ⟨fun z => rfl, fun a b s h hs => ?_⟩
  rw [(C48_interval_partial _).1]
  refine Or.inr ⟨_, Or.inl rfl, ?_⟩
  intro x hx
  simp only [List.mem_singleton] at hx
  exact Or.inr ⟨a, b, s, Or.inr hx, h, by omega⟩

/-! ## C49 -/

theorem checkSpeciesLoop_ok {d : Dict Str PyVal} {u : Unit} (h : checkSpeciesLoop d = .ok u) :
    ∀ p ∈ d, str! "_g" <:+ p.1 → hasPressure p.2 = .ok true := by
  induction d with
  | nil => simp
  | cons p d ih =>
    obtain ⟨species, v⟩ := p
    unfold checkSpeciesLoop at h
    split at h
    · obtain ⟨b, h1, h2⟩ := bind_ok.mp h
      cases b with
      | false => exact nomatch h2
      | true =>
        intro q hq hs
        rcases List.mem_cons.mp hq with rfl | hq
        · exact h1
        · exact ih h2 q hq hs
    · rename_i hn
      intro q hq hs
      rcases List.mem_cons.mp hq with rfl | hq
      · exact absurd hs hn
      · exact ih h q hq hs

theorem get?_mem {κ ν : Type} [DecidableEq κ] {d : Dict κ ν} {k : κ} {v : ν} (h : get? d k = some v) : (k, v) ∈ d := by
  induction d with
  | nil => exact nomatch h
  | cons p d ih =>
    obtain ⟨a, w⟩ := p
    unfold get? at h
    split at h
    · rename_i e
      cases h; subst e; simp
    · exact List.mem_cons_of_mem _ (ih h)

theorem hasPressure_dict {defs : List (PyVal × PyVal)} :
    hasPressure (.dict defs) = .ok true ↔ ∃ v, (PyVal.str (str! "pressure"), v) ∈ defs := by
  unfold hasPressure
  rw [Except.ok.injEq, List.any_eq_true]
  constructor
  · rintro ⟨⟨k, v⟩, hp, hk⟩
    dsimp only at hk
    cases k <;> simp at hk
    subst hk
    exact ⟨v, hp⟩
  · rintro ⟨v, hv⟩
    exact ⟨_, hv, by simp⟩

theorem pressureOf_dict {defs : List (PyVal × PyVal)} :
    (∃ v, pressureOf (.dict defs) = .ok v) ↔ ∃ v, (PyVal.str (str! "pressure"), v) ∈ defs := by
  unfold pressureOf
  dsimp only
  cases h : defs.find? (fun p => match p.1 with | .str s => decide (s = str! "pressure") | _ => false) with
  | none =>
    constructor
    · rintro ⟨v, hv⟩; exact nomatch hv
    · rintro ⟨v, hv⟩
      have := List.find?_eq_none.mp h _ hv
      simp at this
  | some p =>
    refine ⟨fun _ => ?_, fun _ => ⟨p.2, rfl⟩⟩
    have h1 := List.find?_some h
    have h2 := List.mem_of_find?_eq_some h
    obtain ⟨k, v⟩ := p
    dsimp only at h1
    cases k <;> simp at h1
    subst h1
    exact ⟨v, h2⟩

/-- For accepted definitions the pressure of every gas ending in `_g` that is declared by a
dictionary can be read; a gas declared without pressure is rejected. Missing: gases declared by
another value and gases named with a number of sites (`C49_text_refuted`, `C49_number_refuted`). -/
theorem C49_pressure_partial (d : Dict Str PyVal) (gas : Str) (defs : List (PyVal × PyVal))
    (hg : str! "_g" <:+ gas) (hd : get? d gas = some (.dict defs)) :
    (∀ d', checkSpeciesDefinitions d = .ok d' → d' = d ∧ ∃ v, readPressure d gas = .ok v) ∧
    ((∀ p ∈ d, ∃ x, p.2 = .dict x) → (∀ v, (PyVal.str (str! "pressure"), v) ∉ defs) →
      checkSpeciesDefinitions d = .error .SetupError) := by
  constructor
  · intro d' h
    unfold checkSpeciesDefinitions at h
    obtain ⟨u, h1, h2⟩ := bind_ok.mp h
    refine ⟨(pure_ok.mp h2).symm, ?_⟩
    have := hasPressure_dict.mp (checkSpeciesLoop_ok h1 _ (get?_mem hd) hg)
    unfold readPressure
    rw [hd]
    exact pressureOf_dict.mpr this
  · intro hall hno
    have hm := get?_mem hd
    have : checkSpeciesLoop d = .error .SetupError := by
      clear hd
      induction d with
      | nil => exact nomatch hm
      | cons p d ih =>
        obtain ⟨s, v⟩ := p
        obtain ⟨x, rfl⟩ : ∃ x, v = .dict x := hall (s, v) (by simp)
        unfold checkSpeciesLoop
        split
        · rw [show hasPressure (.dict x) = .ok (x.any fun p => match p.1 with
            | .str s => decide (s = str! "pressure") | _ => false) from rfl]
          cases hb : (x.any fun p => match p.1 with | .str s => decide (s = str! "pressure") | _ => false) with
          | false => rfl
          | true =>
            rcases List.mem_cons.mp hm with e | hm
            · cases e
              obtain ⟨v, hv⟩ := hasPressure_dict.mp (congrArg Except.ok hb : hasPressure (.dict defs) = .ok true)
              exact absurd hv (hno v)
            · exact ih (fun p hp => hall p (by simp [hp])) hm
        · rename_i hs
          rcases List.mem_cons.mp hm with e | hm
          · cases e; exact absurd hg hs
          · exact ih (fun p hp => hall p (by simp [hp])) hm
    unfold checkSpeciesDefinitions
    rw [this]; rfl

/-- Reading a pressure succeeds exactly for a gas declared by a dictionary with one, and gives that one; a gas that is not
declared or declared without is a `KeyError`. -/
theorem C49_reading (d : Dict Str PyVal) (gas : Str) :
    (∀ v, readPressure d gas = .ok v ↔ ∃ defs, get? d gas = some (.dict defs) ∧
      ∃ a b, defs = a ++ (.str (str! "pressure"), v) :: b ∧ ∀ w, (PyVal.str (str! "pressure"), w) ∉ a) ∧
    (get? d gas = none → readPressure d gas = .error .KeyError) ∧
    (∀ defs, get? d gas = some (.dict defs) → (∀ v, (PyVal.str (str! "pressure"), v) ∉ defs) →
      readPressure d gas = .error .KeyError) ∧
    (∀ v, get? d gas = some v → (∀ defs, v ≠ .dict defs) → readPressure d gas = .error .TypeError) := by
  have hkey : ∀ p : PyVal × PyVal, (match p.1 with | .str s => decide (s = str! "pressure") | _ => false) = true ↔
      p.1 = .str (str! "pressure") := by
    rintro ⟨k, v⟩
    cases k <;> simp
  refine ⟨?_, ?_, ?_, ?_⟩
  · intro v
    unfold readPressure
    cases hd : get? d gas with
    | none => exact ⟨fun h => (nomatch h), fun ⟨_, h, _⟩ => (nomatch h)⟩
    | some x =>
      cases x with
      | dict defs =>
        dsimp only [pressureOf]
        constructor
        · intro h
          split at h
          · rename_i p hp
            obtain ⟨h1, a, b, h2, h3⟩ := List.find?_eq_some_iff_append.mp hp
            replace h1 := (hkey p).mp h1
            obtain ⟨k, w⟩ := p
            cases h
            dsimp only at h1
            subst h1
            refine ⟨defs, rfl, a, b, h2, ?_⟩
            intro w' hw'
            have := h3 _ hw'
            simp at this
          · exact nomatch h
        · rintro ⟨defs', h1, a, b, h2, h3⟩
          cases h1
          have : defs.find? (fun p => match p.1 with | .str s => decide (s = str! "pressure") | _ => false)
              = some (.str (str! "pressure"), v) := by
            rw [List.find?_eq_some_iff_append]
            refine ⟨by simp, a, b, h2, ?_⟩
            intro p hp
            cases hq : (match p.1 with | .str s => decide (s = str! "pressure") | _ => false) with
            | false => rfl
            | true =>
              rw [hkey] at hq
              exact absurd (show (PyVal.str (str! "pressure"), p.2) ∈ a from hq ▸ hp) (h3 p.2)
          split
          · rename_i p hp
            cases hp.symm.trans this
            rfl
          · rename_i hp
            exact nomatch hp.symm.trans this
      | _ => exact ⟨fun h => (nomatch h), fun ⟨_, h, _⟩ => (nomatch h)⟩
  · intro h
    unfold readPressure
    rw [h]
  · intro defs h hno
    unfold readPressure
    rw [h]
    dsimp only [pressureOf]
    split
    · rename_i p hp
      have h0 := List.find?_some hp
      have h1 := (hkey p).mp h0
      exact absurd (show (PyVal.str (str! "pressure"), p.2) ∈ defs from h1 ▸ List.mem_of_find?_eq_some hp) (hno p.2)
    · rfl
  · intro v h hno
    unfold readPressure
    rw [h]
    cases v with
    | dict defs => exact absurd rfl (hno defs)
    | _ => rfl

example : readPressure [(str! "CO_g", .dict [(.str (str! "pressure"), .float (1 / 10))])] (str! "CO_g") = .ok (.float (1 / 10)) ∧
    readPressure [(str! "CO_g", .dict [(.str (str! "pressure"), .float (1 / 10))])] (str! "O2_g") = .error .KeyError := ⟨rfl, rfl⟩

/-- Carbon monoxide and a site. -/
def exDefs (v : PyVal) : Dict Str PyVal :=
  [(str! "CO_g", v), (str! "*_s", .dict [(.str (str! "site_name"), .str (str! "111")), (.str (str! "total"), .float 1)])]

example : checkSpeciesDefinitions (exDefs (.dict [(.str (str! "pressure"), .float (1 / 10))]))
    = .ok (exDefs (.dict [(.str (str! "pressure"), .float (1 / 10))])) ∧
    str! "_g" <:+ str! "CO_g" := ⟨rfl, ⟨str! "CO", rfl⟩⟩
example : checkSpeciesDefinitions (exDefs (.dict [(.str (str! "total"), .float (1 / 10))])) = .error .SetupError := rfl

/-- A gas declared by a text that contains the word is accepted, and reading the pressure fails. -/
theorem C49_text_refuted : ∃ (d : Dict Str PyVal) (v : PyVal), get? d (str! "CO_g") = some v ∧
    checkSpeciesDefinitions d = .ok d ∧ readPressure d (str! "CO_g") = .error .TypeError :=
  ⟨exDefs (.str (str! "low pressure")), _, rfl, rfl, rfl⟩

/-- A gas written with a number of sites is a gas of the network, but its definition is not checked. -/
theorem C49_number_refuted : ∃ (d : Dict Str PyVal) (n : Network), parseNetwork [str! "CO_2g + *_s -> CO_s"] = .ok n ∧
    str! "CO_2g" ∈ n.gas ∧ (∃ v, get? d (str! "CO_2g") = some v) ∧
    checkSpeciesDefinitions d = .ok d ∧ readPressure d (str! "CO_2g") = .error .KeyError := by
  refine ⟨[(str! "CO_2g", .dict [])], _, rfl, ?_, ⟨_, rfl⟩, rfl, rfl⟩
  decide

/-! ## C50 -/

/-- The number of sites. -/
def siteCount (o : LatticeOwner) : Int := o.repetitions.prod * o.nbasis

theorem nsite_eq {o : LatticeOwner} (h : o.repetitions ≠ []) : o.nsite = .ok (siteCount o) := by
  unfold LatticeOwner.nsite siteCount
  cases hr : o.repetitions with
  | nil => exact absurd hr h
  | cons r rs =>
    have : ∀ (l : List Int) a, l.foldl (· * ·) a = a * l.prod := by
      intro l
      induction l with
      | nil => simp
      | cons x l ih => intro a; rw [List.foldl_cons, ih, List.prod_cons, Int.mul_assoc]
    dsimp only
    rw [this, List.prod_cons]

/-- With repetitions and possible site types given, the sites of the map are as many as the
lattice has and possible types, or a `SetupError` is raised; sites from a file are used exactly
when they fit, and without a file all sites have the first possible type. Missing: the exception
for empty settings (`C50_empty_refuted`). -/
theorem C50_sitesmap_partial (o : LatticeOwner) (file : DataFile (List Str)) (t : Str) (ts : List Str)
    (hr : o.repetitions ≠ []) (ht : o.siteTypes = t :: ts) :
    (∀ l, constructSitesmap o file = .ok l →
      (l.length : Int) = o.repetitions.prod * o.nbasis ∧ ∀ x ∈ l, x ∈ o.siteTypes) ∧
    (∀ e, constructSitesmap o file = .error e → e = .SetupError) ∧
    (∀ l, file = .data l → (l.length : Int) = o.repetitions.prod * o.nbasis → (∀ x ∈ l, x ∈ o.siteTypes) →
      constructSitesmap o file = .ok l) ∧
    ((file = .missing ∨ file = .without) → 0 ≤ o.repetitions.prod * o.nbasis →
      constructSitesmap o file = .ok (List.replicate (o.repetitions.prod * o.nbasis).toNat t)) := by
  have close : ∀ l : List Str, (do
      if (l.length : Int) ≠ siteCount o then .error .SetupError
      else if l.any (fun t => !o.siteTypes.contains t) then .error .SetupError
      else pure l : Py (List Str)) = if (l.length : Int) = siteCount o ∧ ∀ x ∈ l, x ∈ o.siteTypes then .ok l else .error .SetupError := by
    intro l
    by_cases h1 : (l.length : Int) = siteCount o
    · rw [if_neg (by simpa using h1)]
      by_cases h2 : ∀ x ∈ l, x ∈ o.siteTypes
      · rw [if_neg (by simpa using h2), if_pos ⟨h1, h2⟩]; rfl
      · rw [if_pos (by simpa using h2), if_neg (fun h => h2 h.2)]
    · rw [if_pos h1, if_neg (fun h => h1 h.1)]
  have run : ∀ l : List Str, (file = .data l ∨ ((file = .missing ∨ file = .without) ∧ l = pyRepeat t (siteCount o))) →
      constructSitesmap o file = if (l.length : Int) = siteCount o ∧ ∀ x ∈ l, x ∈ o.siteTypes then .ok l else .error .SetupError := by
    intro l h
    rw [← close l]
    unfold constructSitesmap
    rw [nsite_eq hr]
    rcases h with rfl | ⟨rfl | rfl, rfl⟩
    · rfl
    · simp only [defaultSiteTypes, ht]; rfl
    · simp only [defaultSiteTypes, ht]; rfl
  obtain ⟨l, hl⟩ : ∃ l, file = .data l ∨ ((file = .missing ∨ file = .without) ∧ l = pyRepeat t (siteCount o)) := by
    cases file with
    | data l => exact ⟨l, Or.inl rfl⟩
    | missing => exact ⟨_, Or.inr ⟨Or.inl rfl, rfl⟩⟩
    | without => exact ⟨_, Or.inr ⟨Or.inr rfl, rfl⟩⟩
  refine ⟨?_, ?_, ?_, ?_⟩
  · intro k hk
    rw [run l hl] at hk
    split at hk
    · rename_i h; cases hk; exact h
    · exact nomatch hk
  · intro e he
    rw [run l hl] at he
    split at he
    · exact nomatch he
    · cases he; rfl
  · intro k hk h1 h2
    rw [run k (Or.inl hk), if_pos ⟨h1, h2⟩]
  · intro h h0
    rw [run _ (Or.inr ⟨h, rfl⟩), if_pos]
    · rfl
    · unfold pyRepeat
      refine ⟨by rw [List.length_replicate]; exact Int.toNat_of_nonneg h0, ?_⟩
      intro x hx
      rw [List.eq_of_mem_replicate hx, ht]; simp

/-- A lattice of two by three cells with two basis sites. -/
def exLattice : LatticeOwner := ⟨[2, 3, 1], 2, [str! "top", str! "bridge"], [str! "V", str! "C"], str! "V"⟩

example : constructSitesmap exLattice .missing = .ok (List.replicate 12 (str! "top")) := by decide
example : constructSitesmap exLattice (.data [str! "top"]) = .error .SetupError := by decide

/-- The configuration without a file is empty everywhere; the empty type has to be possible. -/
theorem C50_configuration (o : LatticeOwner) (hr : o.repetitions ≠ []) :
    (o.emptyType ∈ o.elementTypes → (∀ file, (file = .missing ∨ file = .without) →
      parseConfiguration o file = .ok (List.replicate (o.repetitions.prod * o.nbasis).toNat o.emptyType)) ∧
      ∀ l, parseConfiguration o (.data l) = .ok l) ∧
    (o.emptyType ∉ o.elementTypes → ∀ file, parseConfiguration o file = .error .SetupError) := by
  constructor
  · intro h
    have hc : (!o.elementTypes.contains o.emptyType) = false := by simpa using h
    constructor
    · rintro file (rfl | rfl) <;>
      · unfold parseConfiguration
        rw [hc, nsite_eq hr]; rfl
    · intro l
      unfold parseConfiguration
      rw [hc]; rfl
  · intro h file
    unfold parseConfiguration
    rw [if_pos (by simpa using h)]

example : parseConfiguration exLattice .without = .ok (List.replicate 12 (str! "V")) := by decide

/-- With the default settings, which name no site types, the construction fails with an
`IndexError`; without repetitions with a `TypeError`. -/
theorem C50_empty_refuted (o : LatticeOwner) :
    (o.repetitions ≠ [] → o.siteTypes = [] → constructSitesmap o .missing = .error .IndexError) ∧
    (o.repetitions = [] → ∀ file, constructSitesmap o file = .error .TypeError) := by
  constructor
  · intro h1 h2
    unfold constructSitesmap defaultSiteTypes
    rw [nsite_eq h1, h2]; rfl
  · intro h file
    unfold constructSitesmap LatticeOwner.nsite
    rw [h]; rfl

/-! ### The theorems at these cases -/

example := C49_pressure_partial (exDefs (.dict [(.str (str! "pressure"), .float (1 / 10))])) (str! "CO_g") [(.str (str! "pressure"), .float (1 / 10))]
  ⟨str! "CO", rfl⟩ rfl

example := C50_sitesmap_partial exLattice .missing (str! "top") [str! "bridge"] (by decide) rfl

example := C50_configuration exLattice (by decide)

end Verif
