import Verif.Props.Lattice
import Verif.Lemmas.Markov
/-
Property C125: the lattice model has one equilibrium and forgets how it began. The engine is not modelled; what follows is about the jump
process that the list of processes handed to it defines (its master equation).
-/
namespace Verif
open Dict Classical
set_option linter.unusedSectionVars false

variable {S C : Type}

/-! ### specification -/

/-- Configurations of the sites `S` with element types of the list. -/
abbrev Config (S : Type) (types : List Str) : Type := S → {t // t ∈ types}

/-- Rate of the jump between two configurations. -/
noncomputable def configRate (place : C → Int → List (List S)) (procs : List (KProc ℝ C)) (types : List Str) (c c' : Config S types) : ℝ :=
  jumpRate place procs (fun s => (c s).1) fun s => (c' s).1

/-- The probabilities change with time as the jumps say: what flows in less what flows out. -/
structure Master [Fintype S] [DecidableEq S] (place : C → Int → List (List S)) (procs : List (KProc ℝ C)) (types : List Str)
    (p : ℝ → Config S types → ℝ) : Prop where
  cont : ∀ c, ContinuousOn (fun t => p t c) (Set.Ici 0)
  deriv : ∀ t, 0 < t → ∀ c, HasDerivAt (fun τ => p τ c)
    (∑ c', (p t c' * configRate place procs types c' c - p t c * configRate place procs types c c')) t

/-- Every configuration can be reached from every other by jumps. -/
def AllReached (place : C → Int → List (List S)) (procs : List (KProc ℝ C)) (types : List Str) : Prop :=
  ∀ c c' : Config S types, Relation.ReflTransGen (fun a b => 0 < configRate place procs types a b) c c'

/-- Processes whose rates are positive and balance with energies of the element types. -/
structure BalancedLattice (o : KmcOwner ℝ) (kT : ℝ) (φ : Str → ℝ) (place : C → Int → List (List S)) (ds : List (ProcDict C))
    (procs : List (KProc ℝ C)) : Prop where
  made : ∃ m, getProcesses o ds [] = (.ok procs, m)
  places : ∀ x b, ∀ a ∈ place x b, a.Nodup
  plain : ∀ d ∈ ds, d.redist = false ∧ WildSame d.before d.after
  rates : ∀ d ∈ ds, ∀ rf rr, o.rates d.reaction = .ok (rf, rr) → 0 < rf ∧ 0 < rr ∧
    Real.exp (-typesEnergy φ d.before / kT) * rf = Real.exp (-typesEnergy φ d.after / kT) * rr

/-! ### helpers -/

/-- Both processes of a definition are in the list. -/
theorem process_made {o : KmcOwner ℝ} {ds : List (ProcDict C)} {m0 m : List Str} {procs : List (KProc ℝ C)}
    (h : getProcesses o ds m0 = (.ok procs, m)) {d : ProcDict C} (hd : d ∈ ds) (hn : d.redist = false) {b : Int} (hb : b ∈ d.basis) {x : C} (hx : x ∈ d.coords) :
    ∃ rf rr, o.rates d.reaction = .ok (rf, rr) ∧ (⟨x, d.before, d.after, b, rf, d.fast, d.redist⟩ : KProc ℝ C) ∈ procs ∧
      (⟨x, d.after, d.before, b, rr, d.fast, false⟩ : KProc ℝ C) ∈ procs := by
  induction ds generalizing m0 m procs with
  | nil => exact absurd hd List.not_mem_nil
  | cons d' ds ih =>
    obtain ⟨qs, qs', m1, h1, h2, rfl⟩ := processes_cons h
    rcases List.mem_cons.mp hd with rfl | hd
    · obtain ⟨rf, rr, hrate, hq, -⟩ := single_spec h1
      refine ⟨rf, rr, hrate, ?_, ?_⟩
      · refine List.mem_append_left _ ?_
        rw [hq, List.mem_flatMap]
        refine ⟨_, List.mem_flatMap.mpr ⟨b, hb, List.mem_map.mpr ⟨x, hx, rfl⟩⟩, ?_⟩
        simp [processPair]
      · refine List.mem_append_left _ ?_
        rw [hq, List.mem_flatMap]
        refine ⟨_, List.mem_flatMap.mpr ⟨b, hb, List.mem_map.mpr ⟨x, hx, rfl⟩⟩, ?_⟩
        simp [processPair, hn]
    · obtain ⟨rf, rr, a1, a2, a3⟩ := ih h2 hd
      exact ⟨rf, rr, a1, List.mem_append_right _ a2, List.mem_append_right _ a3⟩

/-- Every process comes from a definition and has one of its rates. -/
theorem process_from {o : KmcOwner ℝ} {ds : List (ProcDict C)} {m0 m : List Str} {procs : List (KProc ℝ C)}
    (h : getProcesses o ds m0 = (.ok procs, m)) {p : KProc ℝ C} (hp : p ∈ procs) :
    ∃ d ∈ ds, ∃ rf rr, o.rates d.reaction = .ok (rf, rr) ∧ (p.rate = rf ∧ p.before = d.before ∧ p.after = d.after ∨
      p.rate = rr ∧ p.before = d.after ∧ p.after = d.before) := by
  induction ds generalizing m0 m procs with
  | nil =>
    have h1 : [] = procs := Except.ok.inj (congrArg Prod.fst h)
    subst h1
    exact absurd hp List.not_mem_nil
  | cons d ds ih =>
    obtain ⟨qs, qs', m1, h1, h2, rfl⟩ := processes_cons h
    rcases List.mem_append.mp hp with hp | hp
    · obtain ⟨rf, rr, hrate, hq, -⟩ := single_spec h1
      refine ⟨d, List.mem_cons_self, rf, rr, hrate, ?_⟩
      rw [hq, List.mem_flatMap] at hp
      obtain ⟨y, hy, hp⟩ := hp
      obtain ⟨b, -, hy⟩ := List.mem_flatMap.mp hy
      obtain ⟨x, -, rfl⟩ := List.mem_map.mp hy
      simp only [processPair, List.mem_cons] at hp
      rcases hp with rfl | hp
      · exact Or.inl ⟨rfl, rfl, rfl⟩
      · split at hp
        · exact absurd hp List.not_mem_nil
        · rw [List.mem_singleton] at hp
          subst hp
          exact Or.inr ⟨rfl, rfl, rfl⟩
    · obtain ⟨d', hd', rest⟩ := ih h2 hp
      exact ⟨d', List.mem_cons_of_mem _ hd', rest⟩

theorem BalancedLattice.rate_pos {o : KmcOwner ℝ} {kT : ℝ} {φ : Str → ℝ} {place : C → Int → List (List S)} {ds : List (ProcDict C)}
    {procs : List (KProc ℝ C)} (h : BalancedLattice o kT φ place ds procs) : ∀ p ∈ procs, 0 < p.rate := by
  intro p hp
  obtain ⟨m, hm⟩ := h.made
  obtain ⟨d, hd, rf, rr, hr, h1⟩ := process_from hm hp
  obtain ⟨r1, r2, -⟩ := h.rates d hd rf rr hr
  rcases h1 with ⟨e, -⟩ | ⟨e, -⟩ <;> rw [e] <;> assumption

theorem jumpRate_nonneg {place : C → Int → List (List S)} {procs : List (KProc ℝ C)} (h : ∀ p ∈ procs, 0 ≤ p.rate) (c c' : S → Str) :
    0 ≤ jumpRate place procs c c' := by
  apply List.sum_nonneg
  intro x hx
  obtain ⟨p, hp, rfl⟩ := List.mem_map.mp hx
  apply List.sum_nonneg
  intro y hy
  obtain ⟨a, -, rfl⟩ := List.mem_map.mp hy
  split
  · exact h p hp
  · exact le_rfl

theorem jumpRate_pos {place : C → Int → List (List S)} {procs : List (KProc ℝ C)} (h : ∀ p ∈ procs, 0 < p.rate) {c c' : S → Str}
    {p : KProc ℝ C} (hp : p ∈ procs) {a : List S} (ha : a ∈ place p.coords p.basis) (hm : Moves p.before p.after a c c') :
    0 < jumpRate place procs c c' := by
  have inner : ∀ q ∈ procs, ∀ y ∈ (place q.coords q.basis).map (fun a => if Moves q.before q.after a c c' then q.rate else 0), 0 ≤ y := by
    intro q hq y hy
    obtain ⟨a, -, rfl⟩ := List.mem_map.mp hy
    split
    · exact (h q hq).le
    · exact le_rfl
  have h1 : p.rate ≤ ((place p.coords p.basis).map fun a => if Moves p.before p.after a c c' then p.rate else 0).sum := by
    refine List.single_le_sum (inner p hp) _ ?_
    exact List.mem_map.mpr ⟨a, ha, if_pos hm⟩
  refine lt_of_lt_of_le (h p hp) (h1.trans ?_)
  refine List.single_le_sum ?_ _ (List.mem_map.mpr ⟨p, hp, rfl⟩)
  intro x hx
  obtain ⟨q, hq, rfl⟩ := List.mem_map.mp hx
  exact List.sum_nonneg (inner q hq)

theorem BalancedLattice.balanced [Fintype S] [DecidableEq S] {o : KmcOwner ℝ} {kT : ℝ} {φ : Str → ℝ} {place : C → Int → List (List S)}
    {ds : List (ProcDict C)} {procs : List (KProc ℝ C)} (h : BalancedLattice o kT φ place ds procs) {types : List Str} (hc : AllReached place procs types) :
    Flow.JumpBalance (fun c : Config S types => latticeWeight kT φ fun s => (c s).1) (configRate place procs types) where
  pos c := Real.exp_pos _
  nonneg c c' := jumpRate_nonneg (fun p hp => (h.rate_pos p hp).le) _ _
  balance := Flow.gainLoss_of_balance fun c c' => by
    obtain ⟨m, hm⟩ := h.made
    exact lattice_balance o kT φ place h.places ds [] m procs hm h.plain (fun d hd rf rr hr => (h.rates d hd rf rr hr).2.2) _ _
  conn := hc

theorem Master.solves [Fintype S] [DecidableEq S] {place : C → Int → List (List S)} {procs : List (KProc ℝ C)} {types : List Str}
    {p : ℝ → Config S types → ℝ} (h : Master place procs types p) (T : ℝ) : Flow.Solves (Flow.gainLoss (configRate place procs types)) T p :=
  ⟨fun c => (h.cont c).mono fun _ ht => ht.1, fun t ht c => h.deriv t ht.1 c⟩

/-! ### C125 -/

/-- **C125** Where every configuration can be reached there is one stationary distribution: the Boltzmann weights, made to sum up as the
distribution does. Missing: processes that do not balance. -/
theorem C125_unique_partial [Fintype S] [DecidableEq S] (o : KmcOwner ℝ) (kT : ℝ) (φ : Str → ℝ) (place : C → Int → List (List S)) (ds : List (ProcDict C))
    (procs : List (KProc ℝ C)) (h : BalancedLattice o kT φ place ds procs) (types : List Str) (hc : AllReached place procs types)
    (p : Config S types → ℝ) :
    (∀ c, ∑ c', p c' * configRate place procs types c' c = ∑ c', p c * configRate place procs types c c') ↔
      ∀ c, p c * ∑ c' : Config S types, latticeWeight kT φ (fun s => (c' s).1) = (∑ c', p c') * latticeWeight kT φ fun s => (c s).1 := by
  have hb := h.balanced hc
  have hst : (∀ c, ∑ c', p c' * configRate place procs types c' c = ∑ c', p c * configRate place procs types c c') ↔
      ∀ c, Flow.gainLoss (configRate place procs types) p c = 0 := by
    refine forall_congr' fun c => ?_
    unfold Flow.gainLoss
    rw [Finset.sum_sub_distrib, sub_eq_zero]
  rw [hst]
  constructor
  · intro h0 c
    rw [Finset.mul_sum, Finset.sum_mul]
    refine Finset.sum_congr rfl fun c' _ => ?_
    have := Flow.stationary_multiple hb h0 c c'
    have hp1 := (hb.pos c).ne'
    have hp2 := (hb.pos c').ne'
    field_simp at this
    rw [this, mul_comm]
  · intro h0 c
    have hZ : 0 < ∑ c' : Config S types, latticeWeight kT φ (fun s => (c' s).1) := Finset.sum_pos (fun c' _ => hb.pos c') ⟨c, Finset.mem_univ c⟩
    have hp : p = fun c => ((∑ c', p c') / ∑ c' : Config S types, latticeWeight kT φ (fun s => (c' s).1)) * latticeWeight kT φ fun s => (c s).1 := by
      funext c
      rw [div_mul_eq_mul_div, eq_div_iff hZ.ne']
      exact h0 c
    rw [hp]
    exact Flow.stationary_weights hb _ c

/-- **C125** From every distribution of configurations at the beginning there is one distribution at every later time, and it stays a
distribution: for every list of processes. -/
theorem C125_evolves [Fintype S] [DecidableEq S] (place : C → Int → List (List S)) (procs : List (KProc ℝ C))
    (hr : ∀ p ∈ procs, 0 ≤ p.rate) (types : List Str) (p0 : Config S types → ℝ)
    (h0 : ∀ c, 0 ≤ p0 c) (h1 : ∑ c, p0 c = 1) : ∃ p, p 0 = p0 ∧ Master place procs types p ∧
      (∀ t, 0 ≤ t → (∀ c, 0 ≤ p t c) ∧ ∑ c, p t c = 1) ∧ ∀ q, Master place procs types q → q 0 = p0 → ∀ t, 0 ≤ t → q t = p t := by
  obtain ⟨p, hp, hs, hn, hsum⟩ := Flow.gainLoss_exists (J := configRate place procs types) (fun _ _ => jumpRate_nonneg hr _ _) p0 h0
  refine ⟨p, hp, ⟨?_, ?_⟩, ?_, ?_⟩
  · intro c t ht
    have := (hs (t + 1)).cont c t ⟨ht, by linarith⟩
    refine this.mono_of_mem_nhdsWithin ?_
    rw [mem_nhdsWithin]
    exact ⟨Set.Iio (t + 1), isOpen_Iio, by simp, fun x hx => ⟨hx.2, hx.1.le⟩⟩
  · intro t ht c
    exact (hs (t + 1)).deriv t ⟨ht, by linarith⟩ c
  · intro t ht
    exact ⟨hn t ht, by rw [hsum t ht, h1]⟩
  · intro q hq hq0 t ht
    exact Flow.unique (Flow.gainLoss_lip _) (hq.solves t) (hs t) (by rw [hq0, hp]) t ⟨ht, le_rfl⟩

/-- **C125** Where every configuration can be reached there is exactly one stationary distribution, in equilibrium or not; every configuration
has a positive chance in it, and every distribution tends to it exponentially fast, at a rate of the lattice. -/
theorem C125_steady [Fintype S] [DecidableEq S] (place : C → Int → List (List S)) (procs : List (KProc ℝ C)) (hr : ∀ p ∈ procs, 0 ≤ p.rate)
    (types : List Str) (hne : types ≠ []) (hc : AllReached place procs types) :
    ∃ π : Config S types → ℝ, (∀ c, 0 < π c) ∧ ∑ c, π c = 1 ∧
      (∀ q : Config S types → ℝ, (∀ c, ∑ c', q c' * configRate place procs types c' c = ∑ c', q c * configRate place procs types c c') ↔
        ∀ c, q c = (∑ c', q c') * π c) ∧
      ∃ l, 0 < l ∧ ∀ p, Master place procs types p → ∃ A, 0 ≤ A ∧ ∀ t, 0 ≤ t → ∀ c, |p t c - (∑ c', p 0 c') * π c| ≤ A * Real.exp (-l * t) := by
  obtain ⟨e, he⟩ := List.exists_mem_of_ne_nil types hne
  have : Nonempty (Config S types) := ⟨fun _ => ⟨e, he⟩⟩
  obtain ⟨w, hw⟩ := Flow.stationary_exists (J := configRate place procs types) (fun _ _ => jumpRate_nonneg hr _ _) hc
  have hZ : 0 < ∑ c, w c := Finset.sum_pos (fun c _ => hw.pos c) Finset.univ_nonempty
  refine ⟨fun c => w c / ∑ c', w c', fun c => div_pos (hw.pos c) hZ, by rw [← Finset.sum_div, div_self hZ.ne'], ?_, ?_⟩
  · intro q
    have hst : (∀ c, ∑ c', q c' * configRate place procs types c' c = ∑ c', q c * configRate place procs types c c') ↔
        ∀ c, Flow.gainLoss (configRate place procs types) q c = 0 := by
      refine forall_congr' fun c => ?_
      unfold Flow.gainLoss
      rw [Finset.sum_sub_distrib, sub_eq_zero]
    rw [hst]
    constructor
    · intro h0 c
      rw [mul_div_assoc', eq_div_iff hZ.ne', Finset.mul_sum, Finset.sum_mul]
      refine Finset.sum_congr rfl fun c' _ => ?_
      have := Flow.stationary_multiple hw h0 c c'
      have hp1 := (hw.pos c).ne'
      have hp2 := (hw.pos c').ne'
      field_simp at this
      rw [this, mul_comm]
    · intro h0 c
      have hp : q = fun c => ((∑ c', q c') / ∑ c', w c') * w c := by
        funext c
        rw [div_mul_eq_mul_div, ← mul_div_assoc']
        exact h0 c
      rw [hp]
      exact Flow.stationary_weights hw _ c
  · obtain ⟨l, hl, hf⟩ := Flow.forgets hw
    refine ⟨l, hl, fun p hp => ?_⟩
    obtain ⟨A, hA, hb⟩ := hf p hp.solves
    refine ⟨A, hA, fun t ht c => ?_⟩
    have := hb t ht c
    rwa [div_mul_eq_mul_div, ← mul_div_assoc'] at this

/-- **C125** So the mean of every quantity of the configuration (coverages, numbers of possible events) tends to one value, whatever the beginning. -/
theorem C125_means [Fintype S] [DecidableEq S] (place : C → Int → List (List S)) (procs : List (KProc ℝ C)) (hr : ∀ p ∈ procs, 0 ≤ p.rate)
    (types : List Str) (hne : types ≠ []) (hc : AllReached place procs types) (x : Config S types → ℝ) : ∃ m l : ℝ, 0 < l ∧
      ∀ p, Master place procs types p → ∑ c, p 0 c = 1 → ∃ A, 0 ≤ A ∧ ∀ t, 0 ≤ t → |(∑ c, p t c * x c) - m| ≤ A * Real.exp (-l * t) := by
  obtain ⟨π, -, -, -, l, hl, hf⟩ := C125_steady place procs hr types hne hc
  refine ⟨∑ c, π c * x c, l, hl, ?_⟩
  intro p hp h1
  obtain ⟨A, hA, hb⟩ := hf p hp
  refine ⟨A * ∑ c, |x c|, mul_nonneg hA (Finset.sum_nonneg fun c _ => abs_nonneg _), ?_⟩
  intro t ht
  rw [← Finset.sum_sub_distrib]
  refine (Finset.abs_sum_le_sum_abs _ _).trans ?_
  rw [mul_right_comm, Finset.mul_sum]
  refine Finset.sum_le_sum fun c _ => ?_
  rw [← sub_mul, abs_mul]
  refine mul_le_mul_of_nonneg_right ?_ (abs_nonneg _)
  have := hb t ht c
  rwa [h1, one_mul] at this

/-- **C125** Where every configuration can be reached the lattice forgets how it began: the probability of each configuration tends to its
Boltzmann weight, exponentially fast and at a rate of the lattice. Missing: processes that do not balance. -/
theorem C125_forgets_partial [Fintype S] [DecidableEq S] (o : KmcOwner ℝ) (kT : ℝ) (φ : Str → ℝ) (place : C → Int → List (List S)) (ds : List (ProcDict C))
    (procs : List (KProc ℝ C)) (h : BalancedLattice o kT φ place ds procs) (types : List Str) (hc : AllReached place procs types) :
    ∃ l, 0 < l ∧ ∀ p, Master place procs types p → ∃ A, 0 ≤ A ∧ ∀ t, 0 ≤ t → ∀ c,
      |p t c - (∑ c', p 0 c') / (∑ c' : Config S types, latticeWeight kT φ fun s => (c' s).1) * latticeWeight kT φ (fun s => (c s).1)|
        ≤ A * Real.exp (-l * t) := by
  obtain ⟨l, hl, hf⟩ := Flow.forgets (h.balanced hc)
  exact ⟨l, hl, fun p hp => hf p hp.solves⟩

/-- **C125** The coverage that the analysis records tends, in the mean, to the isotherm, from every distribution of configurations. For
lattices with one site in the cell. Missing: as above, more sites in the cell. -/
theorem C125_coverage_partial {n : Nat} (hn : 0 < n) (o : KmcOwner ℝ) (kT : ℝ) (φ : Str → ℝ) (place : C → Int → List (List (Fin n)))
    (ds : List (ProcDict C)) (procs : List (KProc ℝ C)) (h : BalancedLattice o kT φ place ds procs) (types : List Str)
    (ht : types.Nodup) (hc : AllReached place procs types) (empty : Str) (he : empty ∈ types) :
    ∃ cov : Config (Fin n) types → List ℝ, (∀ c, recordCoverages types empty [(1 : ℝ)] (List.ofFn fun s => (c s).1) = .ok (cov c)) ∧
    ∀ (i : Nat) (e : Str), types[i]? = some e → e ≠ empty → ∃ x : Config (Fin n) types → ℝ, (∀ c, (cov c)[i]? = some (x c)) ∧
      ∃ l, 0 < l ∧ ∀ p, Master place procs types p → ∑ c, p 0 c = 1 → ∃ A, 0 ≤ A ∧ ∀ t, 0 ≤ t →
        |(∑ c, p t c * x c) - isotherm kT φ types e| ≤ A * Real.exp (-l * t) := by
  obtain ⟨cov, h1, h2⟩ := C120_isotherm_partial hn kT φ types ht empty he
  refine ⟨cov, h1, ?_⟩
  intro i e hi hne
  obtain ⟨x, hx, hw⟩ := h2 i e hi hne
  refine ⟨x, hx, ?_⟩
  obtain ⟨l, hl, hf⟩ := C125_forgets_partial o kT φ place ds procs h types hc
  refine ⟨l, hl, ?_⟩
  intro p hp h1
  obtain ⟨A, hA, hb⟩ := hf p hp
  refine ⟨A * ∑ c, |x c|, mul_nonneg hA (Finset.sum_nonneg fun c _ => abs_nonneg _), ?_⟩
  intro t ht
  have hZ : 0 < ∑ c' : Config (Fin n) types, latticeWeight kT φ (fun s => (c' s).1) :=
    Finset.sum_pos (fun c' _ => Real.exp_pos _) ⟨fun _ => ⟨empty, he⟩, Finset.mem_univ _⟩
  set Z := ∑ c' : Config (Fin n) types, latticeWeight kT φ (fun s => (c' s).1) with hZdef
  have hiso : isotherm kT φ types e = ∑ c : Config (Fin n) types, 1 / Z * latticeWeight kT φ (fun s => (c s).1) * x c := by
    have : ∑ c : Config (Fin n) types, 1 / Z * latticeWeight kT φ (fun s => (c s).1) * x c
        = 1 / Z * ∑ c : Config (Fin n) types, latticeWeight kT φ (fun s => (c s).1) * x c := by
      rw [Finset.mul_sum]
      exact Finset.sum_congr rfl fun c _ => mul_assoc _ _ _
    rw [this, hw]
    field_simp
  rw [hiso, ← Finset.sum_sub_distrib]
  refine (Finset.abs_sum_le_sum_abs _ _).trans ?_
  rw [mul_right_comm, Finset.mul_sum]
  refine Finset.sum_le_sum fun c _ => ?_
  rw [← sub_mul, abs_mul]
  refine mul_le_mul_of_nonneg_right ?_ (abs_nonneg _)
  have := hb t ht c
  rwa [h1] at this

/-- **C125** Every configuration can be reached if every other type can adsorb on each site and desorb from it, one site at a time. -/
theorem C125_adsorption [Fintype S] [DecidableEq S] (o : KmcOwner ℝ) (place : C → Int → List (List S)) (ds : List (ProcDict C))
    (procs : List (KProc ℝ C)) (m : List Str) (hm : getProcesses o ds [] = (.ok procs, m)) (hpos : ∀ p ∈ procs, 0 < p.rate) (types : List Str) (empty : Str) (he : empty ∈ types)
    (hads : ∀ t ∈ types, t ≠ empty → ∀ s : S, ∃ d ∈ ds, d.redist = false ∧ WildSame d.before d.after ∧
      (d.before = [empty] ∧ d.after = [t] ∨ d.before = [t] ∧ d.after = [empty]) ∧ ∃ b ∈ d.basis, ∃ x ∈ d.coords, [s] ∈ place x b) : AllReached place procs types := by
  -- one jump at one site
  have jump : ∀ (t : Str) (ht : t ∈ types), t ≠ empty → ∀ (s : S) (c : Config S types),
      (c s = ⟨empty, he⟩ → 0 < configRate place procs types c (Function.update c s ⟨t, ht⟩)) ∧
      (c s = ⟨t, ht⟩ → 0 < configRate place procs types c (Function.update c s ⟨empty, he⟩)) := by
    intro t ht hne s c
    obtain ⟨d, hd, hnr, hw, hba, b, hb, x, hx, hpl⟩ := hads t ht hne s
    obtain ⟨rf, rr, -, m1, m2⟩ := process_made hm hd hnr hb hx
    have hstar : (empty = ['*'] ↔ t = ['*']) := by
      rcases hba with ⟨e1, e2⟩ | ⟨e1, e2⟩ <;> rw [e1, e2] at hw
      · exact hw.2 0 _ _ rfl rfl
      · exact (hw.2 0 _ _ rfl rfl).symm
    have n1 : empty ≠ ['*'] := fun e => hne (by rw [hstar.mp e, e])
    have n2 : t ≠ ['*'] := fun e => n1 (hstar.mpr e)
    have mv : ∀ (u v : Str) (hu : u ∈ types) (hv : v ∈ types), v ≠ ['*'] → c s = ⟨u, hu⟩ →
        Moves [u] [v] [s] (fun s => (c s).1) fun s' => (Function.update c s (⟨v, hv⟩ : {t // t ∈ types}) s').1 := by
      intro u v hu hv hvs hcs
      refine ⟨rfl, rfl, ?_, ?_⟩
      · rintro (_ | j) b e s' h1 h2 h3
        · cases h1; cases h2; cases h3
          refine ⟨Or.inr (by rw [hcs]), ?_⟩
          rw [if_neg hvs, Function.update_self]
        · exact nomatch h1
      · intro s' hs'
        have : s' ≠ s := by simpa using hs'
        show (Function.update c s _ s').1 = (c s').1
        rw [Function.update_of_ne this]
    constructor
    · intro hcs
      have := mv empty t he ht n2 hcs
      rcases hba with ⟨e1, e2⟩ | ⟨e1, e2⟩
      · exact jumpRate_pos hpos m1 hpl (by simpa only [e1, e2] using this)
      · exact jumpRate_pos hpos m2 hpl (by simpa only [e1, e2] using this)
    · intro hcs
      have := mv t empty ht he n1 hcs
      rcases hba with ⟨e1, e2⟩ | ⟨e1, e2⟩
      · exact jumpRate_pos hpos m2 hpl (by simpa only [e1, e2] using this)
      · exact jumpRate_pos hpos m1 hpl (by simpa only [e1, e2] using this)
  -- any change at one site
  have one : ∀ (s : S) (c : Config S types) (u : {t // t ∈ types}),
      Relation.ReflTransGen (fun a b => 0 < configRate place procs types a b) c (Function.update c s u) := by
    intro s c u
    have clear : Relation.ReflTransGen (fun a b => 0 < configRate place procs types a b) c (Function.update c s ⟨empty, he⟩) := by
      by_cases hcs : (c s).1 = empty
      · have : Function.update c s ⟨empty, he⟩ = c := by
          have : (⟨empty, he⟩ : {t // t ∈ types}) = c s := Subtype.ext hcs.symm
          rw [this, Function.update_eq_self]
        rw [this]
      · exact Relation.ReflTransGen.single ((jump (c s).1 (c s).2 hcs s c).2 rfl)
    refine clear.trans ?_
    by_cases hu : u.1 = empty
    · have : u = ⟨empty, he⟩ := Subtype.ext hu
      rw [this]
    · have := (jump u.1 u.2 hu s (Function.update c s ⟨empty, he⟩)).1 (Function.update_self ..)
      rw [Function.update_idem] at this
      exact Relation.ReflTransGen.single this
  intro c c'
  have key : ∀ A : Finset S, Relation.ReflTransGen (fun a b => 0 < configRate place procs types a b) c (A.piecewise c' c) := by
    intro A
    induction A using Finset.induction_on with
    | empty => simp only [Finset.piecewise_empty]; exact Relation.ReflTransGen.refl
    | insert s A _ ih =>
      rw [Finset.piecewise_insert]
      exact ih.trans (one s _ _)
  simpa using key Finset.univ

/-- **C125** Transition state theory with absolute energies and positive pressures gives processes that balance, if the element types have
energies that fit all definitions. Missing: as for the balance (C120). -/
theorem C125_transition_state_partial (ro : RateOwner) (hT : 0 < ro.T) (E : Dict Str ℝ) (G : Str → ℝ) (hG : Extends G E) (r : Rel ℝ)
    (hr : relativeFromAbsolute (some E) ro.rxns = .ok r) (P : Str → ℝ) (hP : Extends P ro.pressures) (types : List Str)
    (ds : List (ProcDict C)) (procs : List (KProc ℝ C)) (m : List Str)
    (h : getProcesses (latticeOwner ro .TST ⟨some r.gaf, some r.gar, some r.dg⟩ types) ds [] = (.ok procs, m))
    (hd : ∀ d ∈ ds, d.redist = false ∧ WildSame d.before d.after)
    (hg : ∀ d ∈ ds, ∀ states is fs, eqnFormulas d.reaction = .ok states → states.head? = some is → states.getLast? = some fs →
      ∀ g ∈ is ++ fs, g.type = .gas → g.text = g.speciesSite ∧ g.stoich = 1 ∧ 0 < P g.speciesSite)
    (φ : Str → ℝ) (hφ : ∀ d ∈ ds, TypesFit (kBeV * ro.T) G P φ d)
    (place : C → Int → List (List S)) (hplace : ∀ x b, ∀ a ∈ place x b, a.Nodup) :
    BalancedLattice (latticeOwner ro .TST ⟨some r.gaf, some r.gar, some r.dg⟩ types) (kBeV * ro.T) φ place ds procs := by
  refine ⟨⟨m, h⟩, hplace, hd, ?_⟩
  intro d hdm rf rr hrate
  have hbal := C120_rates_partial ro hT E G hG r hr P hP d (hg d hdm) φ (hφ d hdm) rf rr hrate
  replace hrate : ratesTST ro ⟨some r.gaf, some r.gar, some r.dg⟩ true d.reaction = .ok (rf, rr) := hrate
  have hx : d.reaction ∈ ro.rxns := by
    by_contra hn
    have h2 : relOf ro.rxns ⟨some r.gaf, some r.gar, some r.dg⟩ d.reaction = .error .ValueError := by
      unfold relOf; rw [if_pos hn]
    unfold ratesTST at hrate
    rw [h2] at hrate
    exact nomatch hrate
  obtain ⟨v, kf, kr, hv, hk, -⟩ := C17_from_absolute_energies E ro r hT hr d.reaction hx
  obtain ⟨states, is, fs, h1, h2, h3, -⟩ := C12_single_reaction E G hG _ _ hv
  have hg' := hg d hdm states is fs h1 h2 h3
  obtain ⟨e1, e2⟩ := C21_pressures_partial ro _ d.reaction kf kr rf rr P hP states is fs h1 h2 h3
    (fun g hgm ht => ⟨(hg' g hgm ht).1, (hg' g hgm ht).2.1⟩) hk hrate
  have p1 : 0 < specPressure P is := specPressure_pos fun g hgm ht => (hg' g (by simp [hgm]) ht).2.2
  have p2 : 0 < specPressure P fs := specPressure_pos fun g hgm ht => (hg' g (by simp [hgm]) ht).2.2
  have hk2 : 0 < kf ∧ 0 < kr := by
    obtain ⟨w, -, k1, k2⟩ := ratesTST_ok.mp hk
    dsimp only at k1 k2
    rw [(kTST_ok hT.ne').mp k1, (kTST_ok hT.ne').mp k2]
    have := kBeV_pos
    have := heV_pos
    constructor <;> positivity
  refine ⟨by rw [e1]; exact mul_pos p1 hk2.1, by rw [e2]; exact mul_pos p2 hk2.2, hbal⟩

/-- **C125** The rates that the solver hands over are never negative: with pressures that are not, by transition state theory; by collision
theory they are even positive. -/
theorem C125_rates (ro : RateOwner) (hT : 0 < ro.T) (algo : RateAlgo) (rel : RelDict ℝ) (types : List Str) (ds : List (ProcDict C))
    (procs : List (KProc ℝ C)) (m : List Str) (h : getProcesses (latticeOwner ro algo rel types) ds [] = (.ok procs, m)) :
    (algo = .CT → ∀ p ∈ procs, 0 < p.rate) ∧
    ((∀ k v, get? ro.pressures k = some v → 0 < v) → ∀ p ∈ procs, 0 < p.rate) ∧
    ((∀ k v, get? ro.pressures k = some v → 0 ≤ v) → ∀ p ∈ procs, 0 ≤ p.rate) := by
  have hB := kBeV_pos
  have hH := heV_pos
  have tst : ∀ {g k : ℝ}, kTST g ro.T = .ok k → 0 < k := by
    intro g k hk
    rw [(kTST_ok hT.ne').mp hk]
    positivity
  have ct : ∀ {x : Str} {rf rr : ℝ}, ratesCT ro rel true x = .ok (rf, rr) → 0 < rf ∧ 0 < rr := ratesCT_pos hT
  -- products of pressures
  have prodOf : ∀ {gs : List Formula} {q : ℝ}, pressureProduct ro.pressures gs = .ok q → ∃ ps : List ℝ, q = ps.prod ∧
      ∀ y ∈ ps, ∃ k, get? ro.pressures k = some y := by
    intro gs q hq
    unfold pressureProduct at hq
    rw [bind_ok] at hq
    obtain ⟨ps, hps, hq⟩ := hq
    refine ⟨ps, ?_, ?_⟩
    · cases ps with
      | nil => cases hq; rfl
      | cons y ps =>
        cases hq
        rw [show (y :: ps).prod = (y :: ps).foldl (· * ·) 1 from List.prod_eq_foldl, List.foldl_cons, one_mul]
    · intro y hy
      obtain ⟨g, -, hg⟩ := (mapM_ok_mem hps).1 y hy
      unfold dictGet at hg
      cases hk : get? ro.pressures g.text with
      | none => rw [hk] at hg; exact nomatch hg
      | some v => rw [hk] at hg; cases hg; exact ⟨_, hk⟩
  have tstR : ∀ {x : Str} {rf rr : ℝ}, ratesTST ro rel true x = .ok (rf, rr) → ∃ p p' k k' : ℝ, 0 < k ∧ 0 < k' ∧ rf = p * k ∧ rr = p' * k' ∧
      (∃ gs, pressureProduct ro.pressures gs = .ok p) ∧ ∃ gs, pressureProduct ro.pressures gs = .ok p' := by
    intro x rf rr hr
    unfold ratesTST at hr
    simp only [bind_ok, if_true, pure_ok] at hr
    obtain ⟨v, -, k, hk, k', hk', a, -, p, hp, b, -, p', hp', e⟩ := hr
    cases e
    exact ⟨p, p', k, k', tst hk, tst hk', rfl, rfl, ⟨_, hp⟩, _, hp'⟩
  have each : ∀ P : ℝ → Prop, (∀ x rf rr, kmcRates ro algo rel x = .ok (rf, rr) → P rf ∧ P rr) → ∀ p ∈ procs, P p.rate := by
    intro P hP p hp
    obtain ⟨d, -, rf, rr, hr, h1⟩ := process_from h hp
    obtain ⟨q1, q2⟩ := hP _ _ _ hr
    rcases h1 with ⟨e, -⟩ | ⟨e, -⟩ <;> rw [e] <;> assumption
  refine ⟨fun ha => each _ fun x rf rr hr => ?_, fun hp => each _ fun x rf rr hr => ?_, fun hp => each _ fun x rf rr hr => ?_⟩
  · subst ha; exact ct hr
  · cases algo with
    | CT => exact ct hr
    | other => exact nomatch hr
    | TST =>
      obtain ⟨p, p', k, k', hk, hk', rfl, rfl, ⟨gs, h1⟩, gs', h2⟩ := tstR hr
      obtain ⟨ps, rfl, hps⟩ := prodOf h1
      obtain ⟨ps', rfl, hps'⟩ := prodOf h2
      refine ⟨mul_pos (List.prod_pos fun y hy => ?_) hk, mul_pos (List.prod_pos fun y hy => ?_) hk'⟩
      · obtain ⟨k, hk⟩ := hps y hy; exact hp k y hk
      · obtain ⟨k, hk⟩ := hps' y hy; exact hp k y hk
  · cases algo with
    | CT => exact ⟨(ct hr).1.le, (ct hr).2.le⟩
    | other => exact nomatch hr
    | TST =>
      obtain ⟨p, p', k, k', hk, hk', rfl, rfl, ⟨gs, h1⟩, gs', h2⟩ := tstR hr
      obtain ⟨ps, rfl, hps⟩ := prodOf h1
      obtain ⟨ps', rfl, hps'⟩ := prodOf h2
      refine ⟨mul_nonneg (List.prod_nonneg fun y hy => ?_) hk.le, mul_nonneg (List.prod_nonneg fun y hy => ?_) hk'.le⟩
      · obtain ⟨k, hk⟩ := hps y hy; exact hp k y hk
      · obtain ⟨k, hk⟩ := hps' y hy; exact hp k y hk

/-- **C125** Where not every configuration can be reached the lattice remembers its beginning: with hops alone the empty ring stays empty
and the full ring full. -/
theorem C125_hops_refuted (rf rr : ℝ) (types : List Str) (hV : str! "V" ∈ types) (hC : str! "C" ∈ types) : ∃ procs m,
    getProcesses (⟨[str! "CO_s + *_s -> *_s + CO_s"], types, fun _ => .ok (rf, rr)⟩ : KmcOwner ℝ)
      [⟨str! "CO_s + *_s -> *_s + CO_s", [1], [str! "C", str! "V"], [str! "V", str! "C"], false, [0], false, false⟩] [] = (.ok procs, m) ∧
    Master exLatPlace procs types (fun _ c => if c = (fun _ => ⟨str! "V", hV⟩) then 1 else 0) ∧
    Master exLatPlace procs types (fun _ c => if c = (fun _ => ⟨str! "C", hC⟩) then 1 else 0) := by
  refine ⟨[⟨1, [str! "C", str! "V"], [str! "V", str! "C"], 0, rf, false, false⟩, ⟨1, [str! "V", str! "C"], [str! "C", str! "V"], 0, rr, false, false⟩],
    [str! "CO_s + *_s -> *_s + CO_s(->)", str! "CO_s + *_s -> *_s + CO_s(<-)"], ?_, ?_⟩
  · unfold getProcesses getSingleProcess processRates
    rw [if_neg (by simp), if_neg (by simp), if_neg (by simp [hV, hC])]
    rfl
  have stay : ∀ (u : Str) (c c' : Fin 3 → Str), (u = str! "V" ∨ u = str! "C") → ((∀ s, c s = u) ∨ ∀ s, c' s = u) →
      jumpRate exLatPlace [(⟨1, [str! "C", str! "V"], [str! "V", str! "C"], 0, rf, false, false⟩ : KProc ℝ Nat),
        ⟨1, [str! "V", str! "C"], [str! "C", str! "V"], 0, rr, false, false⟩] c c' = 0 := by
    intro u c c' hu hcc
    have no : ∀ (x y : Str) (s s' : Fin 3), x ≠ y → x ≠ ['*'] → y ≠ ['*'] → ¬ Moves [x, y] [y, x] [s, s'] c c' := by
      intro x y s s' hxy hx hy hm
      have a1 := hm.at_ 0 x y s rfl rfl rfl
      have a2 := hm.at_ 1 y x s' rfl rfl rfl
      have b1 := a1.1.resolve_left hx
      have b2 := a2.1.resolve_left hy
      have d1 := a1.2
      have d2 := a2.2
      rw [if_neg hy] at d1
      rw [if_neg hx] at d2
      rcases hcc with hcc | hcc
      · exact hxy (b1.symm.trans ((hcc s).trans ((hcc s').symm.trans b2)))
      · exact hxy (d2.symm.trans ((hcc s').trans ((hcc s).symm.trans d1)))
    have z1 := fun s s' => no (str! "C") (str! "V") s s' (by decide) (by decide) (by decide)
    have z2 := fun s s' => no (str! "V") (str! "C") s s' (by decide) (by decide) (by decide)
    simp [jumpRate, exLatPlace, z1, z2]
  have master : ∀ (u : Str) (hu : u ∈ types), (u = str! "V" ∨ u = str! "C") → Master exLatPlace
      [(⟨1, [str! "C", str! "V"], [str! "V", str! "C"], 0, rf, false, false⟩ : KProc ℝ Nat),
        ⟨1, [str! "V", str! "C"], [str! "C", str! "V"], 0, rr, false, false⟩] types
      (fun _ c => if c = (fun _ => ⟨u, hu⟩) then 1 else 0) := by
    intro u hu hvc
    refine ⟨fun c => continuousOn_const, ?_⟩
    intro t _ c
    have : ∑ c' : Config (Fin 3) types, ((if c' = (fun _ => ⟨u, hu⟩) then (1 : ℝ) else 0) * configRate exLatPlace
        [(⟨1, [str! "C", str! "V"], [str! "V", str! "C"], 0, rf, false, false⟩ : KProc ℝ Nat),
        ⟨1, [str! "V", str! "C"], [str! "C", str! "V"], 0, rr, false, false⟩] types c' c
        - (if c = (fun _ => ⟨u, hu⟩) then (1 : ℝ) else 0) * configRate exLatPlace
        [(⟨1, [str! "C", str! "V"], [str! "V", str! "C"], 0, rf, false, false⟩ : KProc ℝ Nat),
        ⟨1, [str! "V", str! "C"], [str! "C", str! "V"], 0, rr, false, false⟩] types c c') = 0 := by
      refine Finset.sum_eq_zero fun c' _ => ?_
      have q : ∀ a b : Config (Fin 3) types, (if a = (fun _ => ⟨u, hu⟩) then (1 : ℝ) else 0) * configRate exLatPlace
        [(⟨1, [str! "C", str! "V"], [str! "V", str! "C"], 0, rf, false, false⟩ : KProc ℝ Nat),
        ⟨1, [str! "V", str! "C"], [str! "C", str! "V"], 0, rr, false, false⟩] types a b = 0 := by
        intro a b
        by_cases ha : a = (fun _ => ⟨u, hu⟩)
        · unfold configRate
          rw [stay u _ _ hvc (Or.inl fun s => by rw [ha]), mul_zero]
        · rw [if_neg ha, zero_mul]
      rw [q, q, sub_zero]
    rw [this]
    exact hasDerivAt_const _ _
  exact ⟨master _ hV (Or.inl rfl), master _ hC (Or.inr rfl)⟩

/-! ### carbon monoxide on three sites -/

theorem exLat_balanced : ∃ o procs, BalancedLattice o (kBeV * 450) exLatPhi exLatPlace exLatDicts procs ∧
    AllReached exLatPlace procs [str! "V", str! "C"] := by
  obtain ⟨r, procs, m, hr, h⟩ := exLat_ok
  let G : Str → ℝ := fun x => if x = str! "CO_s" then -2 else 0
  have hG : Extends G exLatE := by
    intro k v hk
    simp only [exLatE, get?] at hk
    split at hk
    · rename_i h; cases hk; rw [← h]; exact if_neg (by decide)
    · split at hk
      · rename_i h; cases hk; rw [← h]; exact if_neg (by decide)
      · split at hk
        · rename_i h; cases hk; rw [← h]; exact if_pos rfl
        · exact nomatch hk
  have hb : BalancedLattice (latticeOwner exLatOwner .TST ⟨some r.gaf, some r.gar, some r.dg⟩ [str! "V", str! "C"]) (kBeV * 450) exLatPhi exLatPlace exLatDicts procs := by
    refine C125_transition_state_partial exLatOwner (by norm_num [exLatOwner]) exLatE G hG r hr (fun _ => 2) ?_ _ exLatDicts procs m h ?_ ?_ exLatPhi ?_ exLatPlace ?_
    · intro k v hk
      simp only [exLatOwner, get?] at hk
      split at hk
      · cases hk; rfl
      · exact nomatch hk
    · intro d hd
      simp only [exLatDicts, List.mem_cons, List.not_mem_nil, or_false] at hd
      rcases hd with rfl | rfl
      · refine ⟨rfl, rfl, ?_⟩
        rintro (_ | j) b e h1 h2
        · cases h1; cases h2; decide
        · exact nomatch h1
      · refine ⟨rfl, rfl, ?_⟩
        rintro (_ | _ | j) b e h1 h2
        · cases h1; cases h2; decide
        · cases h1; cases h2; decide
        · exact nomatch h1
    · intro d hd states is fs s1 s2 s3 g hg ht
      obtain ⟨h1, h2, -⟩ := exLat_gases d hd states is fs s1 s2 s3 g hg ht
      exact ⟨h1, h2, by norm_num⟩
    · intro d hd states is fs s1 s2 s3
      simp only [exLatDicts, List.mem_cons, List.not_mem_nil, or_false] at hd
      rcases hd with rfl | rfl
      · rw [show _ = _ from exLat_states.1] at s1
        cases s1; cases s2; cases s3
        simp [typesEnergy, stateFree, specEnergy, specPressure, exLatPhi, G, fCO, Formula.type, exLatOwner]
      · rw [show _ = _ from exLat_states.2] at s1
        cases s1; cases s2; cases s3
        simp [typesEnergy, stateFree, specEnergy, specPressure, exLatPhi, G, Formula.type]
    · intro x b a ha
      unfold exLatPlace at ha
      split at ha <;> (revert a; decide)
  refine ⟨_, procs, hb, C125_adsorption _ _ _ _ m h hb.rate_pos [str! "V", str! "C"] (str! "V") (by simp) ?_⟩
  intro t ht hne s
  have : t = str! "C" := by
    simp only [List.mem_cons, List.not_mem_nil, or_false] at ht
    exact ht.resolve_left hne
  subst this
  refine ⟨_, List.mem_cons_self, rfl, (hb.plain _ List.mem_cons_self).2, Or.inl ⟨rfl, rfl⟩, 0, List.mem_singleton.mpr rfl, 0, List.mem_singleton.mpr rfl, ?_⟩
  revert s
  decide

/-- All rates of the example are positive. -/
example : ∃ procs : List (KProc ℝ Nat), procs ≠ [] ∧ ∀ p ∈ procs, 0 < p.rate := by
  obtain ⟨r, procs, m, -, h⟩ := exLat_ok
  refine ⟨procs, ?_, (C125_rates exLatOwner (by norm_num [exLatOwner]) _ _ _ _ procs m h).2.1 ?_⟩
  · obtain ⟨rf, rr, -, h1, -⟩ := process_made h (d := exLatDicts[0]) List.mem_cons_self rfl (b := 0) (List.mem_singleton.mpr rfl) (x := 0) (List.mem_singleton.mpr rfl)
    exact List.ne_nil_of_mem h1
  · intro k v hk
    simp only [exLatOwner, get?] at hk
    split at hk
    · cases hk; norm_num
    · exact nomatch hk

/-- Started from the empty ring, the recorded coverage of carbon monoxide tends to the isotherm of Langmuir. -/
example : ∃ (procs : List (KProc ℝ Nat)) (p : ℝ → Config (Fin 3) [str! "V", str! "C"] → ℝ) (x : Config (Fin 3) [str! "V", str! "C"] → ℝ) (l A : ℝ),
    Master exLatPlace procs [str! "V", str! "C"] p ∧ p 0 (fun _ => ⟨str! "V", by decide⟩) = 1 ∧ 0 < l ∧
    (∀ c, ∃ cov, recordCoverages [str! "V", str! "C"] (str! "V") [(1 : ℝ)] (List.ofFn fun s => (c s).1) = .ok cov ∧ cov[1]? = some (x c)) ∧
    ∀ t, 0 ≤ t → |(∑ c, p t c * x c) - isotherm (kBeV * 450) exLatPhi [str! "V", str! "C"] (str! "C")| ≤ A * Real.exp (-l * t) := by
  obtain ⟨o, procs, hb, hc⟩ := exLat_balanced
  obtain ⟨cov, h1, h2⟩ := C125_coverage_partial (n := 3) (by norm_num) o _ _ _ _ _ hb [str! "V", str! "C"] (by decide) hc (str! "V") (by decide)
  obtain ⟨x, hx, l, hl, hf⟩ := h2 1 (str! "C") rfl (by decide)
  obtain ⟨p, hp, hm, -, -⟩ := C125_evolves exLatPlace procs (fun p hp => (hb.rate_pos p hp).le) [str! "V", str! "C"]
    (fun c => if c = (fun _ => ⟨str! "V", by decide⟩) then 1 else 0) (fun c => by split <;> norm_num) (by simp)
  obtain ⟨A, -, hA⟩ := hf p hm (by rw [hp]; simp)
  refine ⟨procs, p, x, l, A, hm, by rw [hp]; simp, hl, fun c => ⟨cov c, h1 c, hx c⟩, hA⟩

/-- Its only stationary distribution. -/
example : ∃ procs : List (KProc ℝ Nat), ∀ p : Config (Fin 3) [str! "V", str! "C"] → ℝ, ∑ c, p c = 1 →
    (∀ c, ∑ c', p c' * configRate exLatPlace procs [str! "V", str! "C"] c' c = ∑ c', p c * configRate exLatPlace procs [str! "V", str! "C"] c c') →
    ∀ c, p c * ∑ c' : Config (Fin 3) [str! "V", str! "C"], latticeWeight (kBeV * 450) exLatPhi (fun s => (c' s).1)
      = latticeWeight (kBeV * 450) exLatPhi fun s => (c s).1 := by
  obtain ⟨o, procs, hb, hc⟩ := exLat_balanced
  refine ⟨procs, fun p h1 h2 c => ?_⟩
  rw [(C125_unique_partial o _ _ _ _ _ hb _ hc p).mp h2 c, h1, one_mul]

/-! ### two adsorbates that react, away from equilibrium -/

def exRunDicts : List (ProcDict Nat) :=
  [⟨str! "CO_g + *_s -> CO_s", [0], [str! "V"], [str! "C"], false, [0], false, false⟩,
   ⟨str! "O_g + *_s -> O_s", [0], [str! "V"], [str! "O"], false, [0], false, false⟩,
   ⟨str! "CO_s + O_s -> CO2_g + 2*_s", [1], [str! "C", str! "O"], [str! "V", str! "V"], false, [0], false, false⟩]
/-- The reaction runs almost in one direction. -/
noncomputable def exRunOwner : KmcOwner ℝ := ⟨exRunDicts.map (·.reaction), [str! "V", str! "C", str! "O"],
  fun r => if r = str! "CO_s + O_s -> CO2_g + 2*_s" then .ok (1000, 1 / 1000) else .ok (1, 1)⟩

/-- The coverages of a reacting lattice tend to one value each, whatever the beginning. -/
example : ∃ procs m, getProcesses exRunOwner exRunDicts [] = (.ok procs, m) ∧ ∀ x : Config (Fin 3) [str! "V", str! "C", str! "O"] → ℝ, ∃ v l : ℝ, 0 < l ∧
    ∀ p, Master exLatPlace procs [str! "V", str! "C", str! "O"] p → ∑ c, p 0 c = 1 → ∃ A, 0 ≤ A ∧ ∀ t, 0 ≤ t → |(∑ c, p t c * x c) - v| ≤ A * Real.exp (-l * t) := by
  cases h : getProcesses exRunOwner exRunDicts [] with
  | mk a m =>
    have hall := (C51_accepted exRunOwner exRunDicts []).mpr (by
      intro d hd
      simp only [exRunDicts, List.mem_cons, List.not_mem_nil, or_false] at hd
      rcases hd with rfl | rfl | rfl
      · refine ⟨by decide, rfl, by simp [exRunOwner], ?_⟩
        simp [exRunOwner, Except.isOk, Except.toBool]
      · refine ⟨by decide, rfl, by simp [exRunOwner], ?_⟩
        simp [exRunOwner, Except.isOk, Except.toBool]
      · refine ⟨by decide, rfl, by simp [exRunOwner]; tauto, ?_⟩
        simp [exRunOwner, Except.isOk, Except.toBool])
    rw [h] at hall
    cases a with
    | error e => exact nomatch hall
    | ok procs =>
      have hpos : ∀ p ∈ procs, 0 < p.rate := by
        intro p hp
        obtain ⟨d, hd, rf, rr, hr, h1⟩ := process_from h hp
        have : 0 < rf ∧ 0 < rr := by
          simp only [exRunOwner] at hr
          split at hr <;> cases hr <;> norm_num
        rcases h1 with ⟨e, -⟩ | ⟨e, -⟩ <;> rw [e]
        · exact this.1
        · exact this.2
      refine ⟨procs, m, rfl, fun x => C125_means exLatPlace procs (fun p hp => (hpos p hp).le) _ (by simp) ?_ x⟩
      refine C125_adsorption exRunOwner exLatPlace exRunDicts procs m h hpos _ (str! "V") (by simp) ?_
      have wild : ∀ t : Str, t ≠ ['*'] → WildSame [str! "V"] [t] := by
        intro t ht
        refine ⟨rfl, ?_⟩
        rintro (_ | j) b e h1 h2
        · cases h1; cases h2
          exact ⟨fun e => absurd e (by decide), fun e => absurd e ht⟩
        · exact nomatch h1
      have site : ∀ s : Fin 3, [s] ∈ exLatPlace 0 0 := by decide
      intro t ht hne s
      simp only [List.mem_cons, List.not_mem_nil, or_false] at ht
      rcases ht with rfl | rfl | rfl
      · exact absurd rfl hne
      · exact ⟨_, List.mem_cons_self, rfl, wild _ (by decide), Or.inl ⟨rfl, rfl⟩, 0, List.mem_singleton.mpr rfl, 0, List.mem_singleton.mpr rfl, site s⟩
      · exact ⟨_, List.mem_cons_of_mem _ List.mem_cons_self, rfl, wild _ (by decide), Or.inl ⟨rfl, rfl⟩, 0, List.mem_singleton.mpr rfl, 0,
          List.mem_singleton.mpr rfl, site s⟩

end Verif
