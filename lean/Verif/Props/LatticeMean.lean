import Verif.Props.Lattice
import Verif.Props.MeanField
/-
Property C121: the lattice model and the mean field model of the same reactions agree where no sites are correlated. The engine is
not modelled; what follows is about the jump process that the list of processes defines (see C120).
-/
namespace Verif
open Dict Classical
set_option linter.unusedSectionVars false

variable {S C : Type} [Fintype S]

/-! ### specification -/

/-- Weight of a configuration when the sites are independent and each type has its coverage. -/
noncomputable def uncorrelated (θ : Str → ℝ) (c : S → Str) : ℝ := ∏ s, θ (c s)

/-- Number of sites of a type. -/
noncomputable def typeNumber (e : Str) (c : S → Str) : ℝ := ∑ s, if c s = e then 1 else 0

/-- Rate at which the mean number of sites of a type changes when the sites are independent. -/
noncomputable def drift (place : C → Int → List (List S)) (procs : List (KProc ℝ C)) (types : List Str) (θ : Str → ℝ) (e : Str) : ℝ :=
  ∑ c : S → {t // t ∈ types}, uncorrelated θ (fun s => (c s).1) *
    ∑ c' : S → {t // t ∈ types}, jumpRate place procs (fun s => (c s).1) (fun s => (c' s).1)
      * (typeNumber e (fun s => (c' s).1) - typeNumber e fun s => (c s).1)

/-- Number of places of the lattice at which a process definition can happen. -/
noncomputable def shapeCount (place : C → Int → List (List S)) (d : ProcDict C) : ℝ :=
  ((d.basis.flatMap fun b => d.coords.map fun x => (b, x)).map fun y => ((place y.2 y.1).length : ℝ)).sum

/-- The species of a state that stand on the surface, each as often as its coefficient says, as element types. -/
def surfaceTypes (τ : Str → Str) (fs : List Formula) : List Str :=
  fs.flatMap fun f => if f.type = .gas then [] else List.replicate f.stoich (τ f.speciesSite)

/-! ### one process at one place -/

theorem typesEnergy_count (e : Str) (l : List Str) : typesEnergy (fun t => if t = e then 1 else 0) l = (l.count e : ℝ) := by
  unfold typesEnergy
  induction l with
  | nil => simp
  | cons x l ih =>
    rw [List.map_cons, List.sum_cons, ih, List.count_cons]
    by_cases h : x = e
    · simp [h]; ring
    · simp [h]

/-- The type that a list of types gives to a site of the place. -/
noncomputable def typeAt (l : List Str) (a : List S) (s : S) : Str := (l[a.idxOf s]?).getD []

theorem typeAt_get {l : List Str} {a : List S} (ha : a.Nodup) {j : Nat} {s : S} {b : Str} (hs : a[j]? = some s) (hb : l[j]? = some b) :
    typeAt l a s = b := by
  obtain ⟨hj, rfl⟩ := List.getElem?_eq_some_iff.mp hs
  unfold typeAt
  rw [List.Nodup.idxOf_getElem ha, hb]
  rfl

theorem map_typeAt {l : List Str} {a : List S} (ha : a.Nodup) (hl : l.length = a.length) : a.map (typeAt l a) = l := by
  apply List.ext_getElem (by simp [hl])
  intro i h1 h2
  rw [List.getElem_map]
  exact typeAt_get ha (List.getElem?_eq_getElem _) (List.getElem?_eq_getElem _)

theorem get_of_mem {l : List Str} {a : List S} (hl : l.length = a.length) {s : S} (hs : s ∈ a) :
    ∃ (j : Nat) (b : Str), a[j]? = some s ∧ l[j]? = some b := by
  obtain ⟨j, hj, rfl⟩ := List.mem_iff_getElem.mp hs
  exact ⟨j, l[j]'(hl ▸ hj), List.getElem?_eq_getElem _, List.getElem?_eq_getElem _⟩

theorem sum_types {types : List Str} (hn : types.Nodup) (f : Str → ℝ) : ∑ t : {t // t ∈ types}, f t.1 = (types.map f).sum := by
  rw [← List.sum_toFinset _ hn, ← Finset.sum_coe_sort types.toFinset f]
  exact Fintype.sum_equiv (Equiv.subtypeEquivRight fun t => by simp) _ _ fun _ => rfl

/-- Chance that the types before stand at the place. -/
theorem chance {types : List Str} (hn : types.Nodup) (θ : Str → ℝ) (h1 : (types.map θ).sum = 1) {l : List Str} {a : List S}
    (ha : a.Nodup) (hl : l.length = a.length) (hm : ∀ b ∈ l, b ∈ types) :
    ∑ c : S → {t // t ∈ types}, (uncorrelated θ fun s => (c s).1) * (if ∀ s ∈ a, (c s).1 = typeAt l a s then 1 else 0) = (l.map θ).prod := by
  have hf : ∀ c : S → {t // t ∈ types}, (uncorrelated θ fun s => (c s).1) * (if ∀ s ∈ a, (c s).1 = typeAt l a s then (1 : ℝ) else 0)
      = ∏ s, (θ (c s).1 * if s ∈ a → (c s).1 = typeAt l a s then (1 : ℝ) else 0) := by
    intro c
    rw [Finset.prod_mul_distrib]
    unfold uncorrelated
    congr 1
    rw [Finset.prod_ite_zero]
    simp
  simp only [hf]
  rw [← Fintype.prod_sum (κ := fun _ : S => {t // t ∈ types}) (fun s t => θ t.1 * if s ∈ a → t.1 = typeAt l a s then (1 : ℝ) else 0)]
  have each : ∀ s : S, ∑ t : {t // t ∈ types}, (θ t.1 * if s ∈ a → t.1 = typeAt l a s then (1 : ℝ) else 0)
      = if s ∈ a then θ (typeAt l a s) else 1 := by
    intro s
    rw [sum_types hn fun t => θ t * if s ∈ a → t = typeAt l a s then (1 : ℝ) else 0]
    by_cases hs : s ∈ a
    · simp only [hs, forall_true_left, if_true]
      rw [← List.sum_toFinset _ hn]
      obtain ⟨j, b, e1, e2⟩ := get_of_mem hl hs
      have : typeAt l a s ∈ types := by rw [typeAt_get ha e1 e2]; exact hm b (List.mem_of_getElem? e2)
      simp [this]
    · simpa [hs] using h1
  simp only [each]
  conv_rhs => rw [← map_typeAt ha hl, List.map_map, ← List.prod_toFinset _ ha]
  rw [Finset.prod_ite, Finset.prod_const_one, mul_one]
  refine Finset.prod_congr ?_ fun _ _ => rfl
  ext s; simp

/-- What one process does at one place in the mean. -/
theorem drift_one {types : List Str} (hn : types.Nodup) (θ : Str → ℝ) (h1 : (types.map θ).sum = 1) {b e : List Str} {a : List S}
    (ha : a.Nodup) (hb : b.length = a.length) (he : e.length = a.length) (hbm : ∀ x ∈ b, x ∈ types ∧ x ≠ ['*'])
    (hem : ∀ x ∈ e, x ∈ types ∧ x ≠ ['*']) (r : ℝ) (t : Str) :
    ∑ c : S → {t // t ∈ types}, (uncorrelated θ fun s => (c s).1) * ∑ c' : S → {t // t ∈ types},
      (if Moves b e a (fun s => (c s).1) (fun s => (c' s).1) then r else 0)
        * (typeNumber t (fun s => (c' s).1) - typeNumber t fun s => (c s).1)
      = r * (b.map θ).prod * ((e.count t : ℝ) - (b.count t : ℝ)) := by
  have hw : WildSame b e := ⟨by rw [hb, he], fun j x y hx hy =>
    iff_of_false (hbm x (List.mem_of_getElem? hx)).2 (hem y (List.mem_of_getElem? hy)).2⟩
  have inner : ∀ c : S → {t // t ∈ types}, ∑ c' : S → {t // t ∈ types},
      (if Moves b e a (fun s => (c s).1) (fun s => (c' s).1) then r else 0)
        * (typeNumber t (fun s => (c' s).1) - typeNumber t fun s => (c s).1)
      = (if ∀ s ∈ a, (c s).1 = typeAt b a s then 1 else 0) * (r * ((e.count t : ℝ) - (b.count t : ℝ))) := by
    intro c
    have hin : ∀ s, s ∈ a → typeAt e a s ∈ types := by
      intro s hs
      obtain ⟨j, y, e1, e2⟩ := get_of_mem he hs
      rw [typeAt_get ha e1 e2]; exact (hem y (List.mem_of_getElem? e2)).1
    let c0 : S → {t // t ∈ types} := fun s => if hs : s ∈ a then ⟨typeAt e a s, hin s hs⟩ else c s
    have uniq : ∀ c' : S → {t // t ∈ types}, Moves b e a (fun s => (c s).1) (fun s => (c' s).1) → c' = c0 := by
      intro c' hm
      funext s
      apply Subtype.ext
      by_cases hs : s ∈ a
      · obtain ⟨j, y, e1, e2⟩ := get_of_mem he hs
        obtain ⟨j', x, e3, e4⟩ := get_of_mem hb hs
        have hj : j' = j := (List.getElem?_inj (List.getElem?_eq_some_iff.mp e3).1 ha).mp (e3.trans e1.symm)
        subst hj
        have := (hm.at_ _ x y s e4 e2 e1).2
        rw [if_neg (hem y (List.mem_of_getElem? e2)).2] at this
        rw [this]
        simp only [c0, dif_pos hs]
        exact (typeAt_get ha e1 e2).symm
      · have := hm.rest s hs
        rw [this]
        simp only [c0, dif_neg hs]
    rw [Finset.sum_eq_single c0]
    · by_cases hfit : ∀ s ∈ a, (c s).1 = typeAt b a s
      · have hm : Moves b e a (fun s => (c s).1) (fun s => (c0 s).1) := by
          refine ⟨hb, he, ?_, ?_⟩
          · intro j x y s hx hy hs
            have hsa := List.mem_of_getElem? hs
            refine ⟨Or.inr ?_, ?_⟩
            · rw [hfit s hsa]; exact typeAt_get ha hs hx
            · rw [if_neg (hem y (List.mem_of_getElem? hy)).2]
              simp only [c0, dif_pos hsa]
              exact typeAt_get ha hs hy
          · intro s hs
            simp only [c0, dif_neg hs]
        rw [if_pos hm, if_pos hfit, one_mul]
        have := moves_energy (fun x => if x = t then (1 : ℝ) else 0) ha hw hm
        rw [typesEnergy_count, typesEnergy_count] at this
        rw [← this]
        rfl
      · have hm : ¬ Moves b e a (fun s => (c s).1) (fun s => (c0 s).1) := by
          intro hm
          apply hfit
          intro s hs
          obtain ⟨j, x, e3, e4⟩ := get_of_mem hb hs
          obtain ⟨y, hy⟩ : ∃ y, e[j]? = some y := by
            have : j < e.length := by rw [he]; exact (List.getElem?_eq_some_iff.mp e3).1
            exact ⟨e[j], List.getElem?_eq_getElem _⟩
          rw [typeAt_get ha e3 e4]
          exact (hm.at_ j x y s e4 hy e3).1.resolve_left (hbm x (List.mem_of_getElem? e4)).2
        rw [if_neg hm, if_neg hfit, zero_mul, zero_mul]
    · intro c' _ hne
      rw [if_neg (fun hm => hne (uniq c' hm)), zero_mul]
    · intro h; exact absurd (Finset.mem_univ _) h
  simp only [inner]
  have : ∀ c : S → {t // t ∈ types}, (uncorrelated θ fun s => (c s).1) * ((if ∀ s ∈ a, (c s).1 = typeAt b a s then (1 : ℝ) else 0) * (r * ((e.count t : ℝ) - (b.count t : ℝ))))
      = ((uncorrelated θ fun s => (c s).1) * (if ∀ s ∈ a, (c s).1 = typeAt b a s then (1 : ℝ) else 0)) * (r * ((e.count t : ℝ) - (b.count t : ℝ))) := by
    intro c; ring
  simp only [this]
  rw [← Finset.sum_mul, chance hn θ h1 ha hb (fun x hx => (hbm x hx).1)]
  ring

theorem drift_append (place : C → Int → List (List S)) (p q : List (KProc ℝ C)) (types : List Str) (θ : Str → ℝ) (e : Str) :
    drift place (p ++ q) types θ e = drift place p types θ e + drift place q types θ e := by
  unfold drift
  rw [← Finset.sum_add_distrib]
  refine Finset.sum_congr rfl fun c _ => ?_
  rw [← mul_add, ← Finset.sum_add_distrib]
  congr 1
  refine Finset.sum_congr rfl fun c' _ => ?_
  unfold jumpRate
  rw [List.map_append, List.sum_append]
  ring

theorem drift_nil (place : C → Int → List (List S)) (types : List Str) (θ : Str → ℝ) (e : Str) :
    drift place [] types θ e = 0 := by
  simp [drift, jumpRate]

/-- What one process does in the mean: places times rate times coverages before times change of number. -/
theorem drift_proc {types : List Str} (hn : types.Nodup) (θ : Str → ℝ) (h1 : (types.map θ).sum = 1) (place : C → Int → List (List S))
    (p : KProc ℝ C) (hp : ∀ a ∈ place p.coords p.basis, a.Nodup ∧ p.before.length = a.length ∧ p.after.length = a.length)
    (hbm : ∀ x ∈ p.before, x ∈ types ∧ x ≠ ['*']) (hem : ∀ x ∈ p.after, x ∈ types ∧ x ≠ ['*']) (t : Str) :
    drift place [p] types θ t
      = ((place p.coords p.basis).length : ℝ) * (p.rate * (p.before.map θ).prod * ((p.after.count t : ℝ) - (p.before.count t : ℝ))) := by
  unfold drift jumpRate
  simp only [List.map_cons, List.map_nil, List.sum_cons, List.sum_nil, add_zero]
  generalize place p.coords p.basis = as at hp
  induction as with
  | nil => simp
  | cons a as ih =>
    have ha := hp a (by simp)
    simp only [List.map_cons, List.sum_cons, add_mul, Finset.sum_add_distrib, mul_add]
    rw [ih fun x hx => hp x (by simp [hx]), drift_one hn θ h1 ha.1 ha.2.1 ha.2.2 hbm hem]
    simp only [List.length_cons, Nat.cast_add, Nat.cast_one]
    ring

/-- **C121** The mean number of sites of each type changes, when the sites are independent, at the sum over the process definitions of: number
of places, times net rate at the coverages of the types, times the change of the number in one process. Missing: redistribution
processes and wildcards. -/
theorem C121_drift_partial (o : KmcOwner ℝ) (ds : List (ProcDict C)) (m0 m : List Str) (procs : List (KProc ℝ C))
    (h : getProcesses o ds m0 = (.ok procs, m)) {types : List Str} (hn : types.Nodup) (θ : Str → ℝ) (h1 : (types.map θ).sum = 1)
    (place : C → Int → List (List S))
    (hd : ∀ d ∈ ds, d.redist = false ∧ ∀ x ∈ d.before ++ d.after, x ∈ types ∧ x ≠ ['*'])
    (hp : ∀ d ∈ ds, ∀ b ∈ d.basis, ∀ x ∈ d.coords, ∀ a ∈ place x b, a.Nodup ∧ d.before.length = a.length ∧ d.after.length = a.length)
    (R : Str → ℝ × ℝ) (hR : ∀ d ∈ ds, o.rates d.reaction = .ok (R d.reaction)) (t : Str) :
    drift place procs types θ t = (ds.map fun d => shapeCount place d
      * ((R d.reaction).1 * (d.before.map θ).prod - (R d.reaction).2 * (d.after.map θ).prod)
      * ((d.after.count t : ℝ) - (d.before.count t : ℝ))).sum := by
  induction ds generalizing m0 m procs with
  | nil =>
    have h1 : [] = procs := Except.ok.inj (congrArg Prod.fst h)
    subst h1
    simp [drift_nil]
  | cons d ds ih =>
    obtain ⟨qs, qs', m1, g1, g2, rfl⟩ := processes_cons h
    obtain ⟨rf, rr, hrate, hq, -⟩ := single_spec g1
    rw [drift_append, ih _ _ _ g2 (fun x hx => hd x (by simp [hx])) (fun x hx => hp x (by simp [hx])) (fun x hx => hR x (by simp [hx])),
      List.map_cons, List.sum_cons]
    congr 1
    obtain ⟨hnr, hm⟩ := hd d (by simp)
    have hRd := hR d (by simp)
    rw [hRd] at hrate
    have e1 : R d.reaction = (rf, rr) := Except.ok.inj hrate
    rw [e1]
    have hq' : qs = (d.basis.flatMap fun b => d.coords.map fun x => (b, x)).flatMap fun y =>
        [(⟨y.2, d.before, d.after, y.1, rf, d.fast, d.redist⟩ : KProc ℝ C), ⟨y.2, d.after, d.before, y.1, rr, d.fast, false⟩] := by
      rw [hq]
      simp only [List.flatMap_assoc, List.flatMap_map, processPair, hnr, Bool.false_eq_true, if_false]
    have hys : ∀ y ∈ (d.basis.flatMap fun b => d.coords.map fun x => (b, x)), ∀ a ∈ place y.2 y.1,
        a.Nodup ∧ d.before.length = a.length ∧ d.after.length = a.length := by
      intro y hy
      rw [List.mem_flatMap] at hy
      obtain ⟨b, hb, hy⟩ := hy
      obtain ⟨x, hx, rfl⟩ := List.mem_map.mp hy
      exact hp d (by simp) b hb x hx
    rw [hq']
    unfold shapeCount
    generalize (d.basis.flatMap fun b => d.coords.map fun x => (b, x)) = ys at hys
    clear hq hq' ih h g1 g2
    have hbm : ∀ x ∈ d.before, x ∈ types ∧ x ≠ ['*'] := fun x hx => hm x (by simp [hx])
    have hem : ∀ x ∈ d.after, x ∈ types ∧ x ≠ ['*'] := fun x hx => hm x (by simp [hx])
    induction ys with
    | nil => simp [drift_nil]
    | cons y ys ih2 =>
      have hy := hys y (by simp)
      rw [List.flatMap_cons, drift_append, ih2 fun z hz => hys z (by simp [hz]),
        show ∀ p q : KProc ℝ C, [p, q] = [p] ++ [q] from fun _ _ => rfl, drift_append,
        drift_proc hn θ h1 place _ hy hbm hem, drift_proc hn θ h1 place _ (fun a ha => ⟨(hy a ha).1, (hy a ha).2.2, (hy a ha).2.1⟩) hem hbm]
      simp only [List.map_cons, List.sum_cons]
      ring

/-! ### the rates of the mean field model -/

/-- The element types of a process definition are the surface species of the end states of its reaction, and their coverages are those of
the species. -/
structure Depicts (τ : Str → Str) (θ cov : Str → ℝ) (d : ProcDict C) : Prop where
  before : ∀ states is, eqnFormulas d.reaction = .ok states → states.head? = some is → d.before.Perm (surfaceTypes τ is)
  after : ∀ states fs, eqnFormulas d.reaction = .ok states → states.getLast? = some fs → d.after.Perm (surfaceTypes τ fs)
  gases : ∀ states is fs, eqnFormulas d.reaction = .ok states → states.head? = some is → states.getLast? = some fs →
    ∀ f ∈ is ++ fs, f.type ≠ .liquid ∧ (f.type = .gas → f.text = f.speciesSite ∧ f.stoich = 1)
  coverages : ∀ states is fs, eqnFormulas d.reaction = .ok states → states.head? = some is → states.getLast? = some fs →
    ∀ f ∈ is ++ fs, f.type ≠ .gas → θ (τ f.speciesSite) = cov f.speciesSite

theorem activity_split (P Q cov θ : Str → ℝ) (τ : Str → Str) (fs : List Formula) (hl : ∀ f ∈ fs, f.type ≠ .liquid)
    (hc : ∀ f ∈ fs, f.type ≠ .gas → θ (τ f.speciesSite) = cov f.speciesSite) :
    specPressure P fs * ((surfaceTypes τ fs).map θ).prod = stateActivity P Q cov fs := by
  unfold specPressure surfaceTypes stateActivity
  induction fs with
  | nil => simp
  | cons f fs ih =>
    have ih := ih (fun g hg => hl g (by simp [hg])) (fun g hg => hc g (by simp [hg]))
    rw [List.map_cons, List.prod_cons, ← ih, List.flatMap_cons, List.map_append, List.prod_append]
    have h1 := hl f (by simp)
    have h2 := hc f (by simp)
    by_cases hg : f.type = .gas
    · have hs : f.site = ['g'] := by
        by_contra hn
        unfold Formula.type at hg
        rw [if_neg hn] at hg
        split at hg
        · exact nomatch hg
        · split at hg <;> exact nomatch hg
      rw [List.filter_cons_of_pos (by simpa using hg), if_pos hg]
      have : specAct P Q cov f = P f.speciesSite := by
        unfold specAct specKind; rw [if_pos (show f.site = str! "g" from hs)]
      rw [this]
      simp
      ring
    · have hs : f.site ≠ ['g'] := fun e => hg (by unfold Formula.type; rw [if_pos e])
      have hs' : f.site ≠ ['l'] := fun e => h1 (by unfold Formula.type; rw [if_neg hs, if_pos e])
      rw [List.filter_cons_of_neg (by simpa using hg), if_neg hg]
      have : specAct P Q cov f = cov f.speciesSite := by
        unfold specAct specKind
        rw [if_neg (show f.site ≠ str! "g" from hs), if_neg (show f.site ≠ str! "l" from hs')]
        split <;> first | rfl | (rename_i h; exfalso; revert h; split <;> [simp; (split <;> simp)])
      rw [this, List.map_replicate, List.prod_replicate, h2 hg]
      ring

theorem count_surface (τ : Str → Str) (a : Str) (fs : List Formula) (hg : ∀ f ∈ fs, f.type = .gas → f.speciesSite ≠ a)
    (hi : ∀ f ∈ fs, f.type ≠ .gas → τ f.speciesSite = τ a → f.speciesSite = a) :
    (surfaceTypes τ fs).count (τ a) = totalCoef a fs := by
  unfold surfaceTypes totalCoef
  induction fs with
  | nil => rfl
  | cons f fs ih =>
    have ih := ih (fun g h => hg g (by simp [h])) (fun g h => hi g (by simp [h]))
    rw [List.flatMap_cons, List.count_append, ih]
    by_cases h : f.type = .gas
    · rw [if_pos h, List.filter_cons_of_neg (by simpa using hg f (by simp) h)]
      simp
    · rw [if_neg h]
      by_cases e : f.speciesSite = a
      · rw [List.filter_cons_of_pos (by simpa using e), e, List.count_replicate_self]
        rfl
      · rw [List.filter_cons_of_neg (by simpa using e), List.count_replicate, if_neg (fun h' => e (hi f (by simp) h (by simpa using h')))]
        simp

/-- **C121** The rate that the lattice solver gives to a process, times the coverages of the types it needs, is the rate that the mean field
solver computes for its reaction at the same coverages; the same for the reverse. Missing: liquids, and gases with coefficients. -/
theorem C121_rates_partial (ro : RateOwner) (rel : RelDict ℝ) (P Q cov θ : Str → ℝ) (hP : Extends P ro.pressures) (τ : Str → Str) (d : ProcDict C)
    (hd : Depicts τ θ cov d) (states : List (List Formula)) (is fs : List Formula)
    (h1 : eqnFormulas d.reaction = .ok states) (h2 : states.head? = some is) (h3 : states.getLast? = some fs) (kf kr rf rr : ℝ)
    (hk : ratesTST ro rel false d.reaction = .ok (kf, kr)) (hr : kmcRates ro .TST rel d.reaction = .ok (rf, rr)) :
    rf * (d.before.map θ).prod = kf * stateActivity P Q cov is ∧ rr * (d.after.map θ).prod = kr * stateActivity P Q cov fs := by
  have hg := hd.gases states is fs h1 h2 h3
  have hc := hd.coverages states is fs h1 h2 h3
  obtain ⟨e1, e2⟩ := C21_pressures_partial ro rel d.reaction kf kr rf rr P hP states is fs h1 h2 h3
    (fun g hgm ht => (hg g hgm).2 ht) hk hr
  rw [e1, e2, (hd.before states is h1 h2 |>.map θ).prod_eq, (hd.after states fs h1 h3 |>.map θ).prod_eq,
    ← activity_split P Q cov θ τ is (fun f hf => (hg f (by simp [hf])).1) (fun f hf => hc f (by simp [hf])),
    ← activity_split P Q cov θ τ fs (fun f hf => (hg f (by simp [hf])).1) (fun f hf => hc f (by simp [hf]))]
  constructor <;> ring

/-- What collision theory needs to give both models the same rates: at most one gas among the ends of a reaction, a gas of the data base with
a pressure above zero. -/
def CollisionReady (ro : RateOwner) (rxns : List Str) : Prop :=
  0 < ro.T ∧ ∀ r ∈ rxns, ∀ states is fs, eqnFormulas r = .ok states → states.head? = some is → states.getLast? = some fs →
    ((is ++ fs).filter (·.type = .gas)).length ≤ 1 ∧ ∀ f ∈ is ++ fs, f.type = .gas →
      ∃ p, get? ro.pressures f.text = some p ∧ 0 < p ∧ ∃ f' sigma rot vib mass, InDatabase f.text f' sigma rot vib mass

theorem pressure_none {P : Str → ℝ} {fs : List Formula} (h : fs.find? (·.type = .gas) = none) : specPressure P fs = 1 := by
  unfold specPressure
  rw [List.filter_eq_nil_iff.mpr (List.find?_eq_none.mp h)]
  rfl

theorem pressure_single {P : Str → ℝ} {fs : List Formula} {f : Formula} (h : fs.find? (·.type = .gas) = some f)
    (h1 : (fs.filter (·.type = .gas)).length ≤ 1) : specPressure P fs = P f.speciesSite ^ f.stoich := by
  have hm : f ∈ fs.filter (·.type = .gas) :=
    List.mem_filter.mpr ⟨List.mem_of_find?_eq_some h, List.find?_some (p := fun x : Formula => decide (x.type = .gas)) h⟩
  unfold specPressure
  generalize fs.filter (·.type = .gas) = l at h1 hm
  match l, h1, hm with
  | [], _, hm => exact nomatch hm
  | [g], _, hm =>
    rw [List.mem_singleton] at hm
    subst hm
    simp
  | _ :: _ :: _, h1, _ => simp at h1

/-- **C121** The same with collision theory on both sides. Missing: also reactions with several gases and gases outside the
data base (`C21_collision_both_sides_refuted`, `C127_unknown_gas_refuted`). -/
theorem C121_collision_rates_partial (ro : RateOwner) (rel : RelDict ℝ) (P Q cov θ : Str → ℝ) (hP : Extends P ro.pressures) (τ : Str → Str) (d : ProcDict C)
    (hd : Depicts τ θ cov d) (hct : CollisionReady ro [d.reaction]) (states : List (List Formula)) (is fs : List Formula)
    (h1 : eqnFormulas d.reaction = .ok states) (h2 : states.head? = some is) (h3 : states.getLast? = some fs) (kf kr rf rr : ℝ)
    (hk : ratesCT ro rel false d.reaction = .ok (kf, kr)) (hr : kmcRates ro .CT rel d.reaction = .ok (rf, rr)) :
    rf * (d.before.map θ).prod = kf * stateActivity P Q cov is ∧ rr * (d.after.map θ).prod = kr * stateActivity P Q cov fs := by
  have hg := hd.gases states is fs h1 h2 h3
  have hc := hd.coverages states is fs h1 h2 h3
  obtain ⟨hT, hct⟩ := hct
  obtain ⟨c1, c2⟩ := hct _ (by simp) states is fs h1 h2 h3
  rw [List.filter_append, List.length_append] at c1
  have key : rf = specPressure P is * kf ∧ rr = specPressure P fs * kr := by
    cases hi : is.find? (·.type = .gas) with
    | some f =>
      have hfi := List.mem_of_find?_eq_some hi
      have hfg : f.type = .gas := by simpa using List.find?_some hi
      have hlen : 1 ≤ (is.filter (·.type = .gas)).length :=
        List.length_pos_of_mem (List.mem_filter.mpr ⟨hfi, by simpa using hfg⟩)
      have hfn : fs.find? (·.type = .gas) = none := by
        have : fs.filter (·.type = .gas) = [] := List.eq_nil_of_length_eq_zero (by omega)
        rw [List.find?_eq_none]
        exact List.filter_eq_nil_iff.mp this
      obtain ⟨p, p1, p2, f', sigma, rot, vib, mass, hdb⟩ := c2 f (by simp [hfi]) hfg
      obtain ⟨t1, t2⟩ := (hg f (by simp [hfi])).2 hfg
      obtain ⟨e1, e2⟩ := C21_collision_adsorption_partial ro rel d.reaction kf kr rf rr p states is f f' h1 h2 hi t2 hdb hT p1 p2 hk hr
      rw [pressure_none hfn, pressure_single hi (by omega), t2, pow_one, ← t1, hP _ _ p1, e1, e2, one_mul]
      exact ⟨rfl, rfl⟩
    | none =>
      cases hf : fs.find? (·.type = .gas) with
      | some f =>
        have hfi := List.mem_of_find?_eq_some hf
        have hfg : f.type = .gas := by simpa using List.find?_some hf
        obtain ⟨p, p1, p2, f', sigma, rot, vib, mass, hdb⟩ := c2 f (by simp [hfi]) hfg
        obtain ⟨t1, t2⟩ := (hg f (by simp [hfi])).2 hfg
        obtain ⟨e1, e2⟩ := C21_collision_desorption_partial ro rel d.reaction kf kr rf rr p states is fs f f' h1 h2 h3 hi hf t2 hdb hT p1 p2 hk hr
        rw [pressure_none hi, pressure_single hf (by omega), t2, pow_one, ← t1, hP _ _ p1, e1, e2, one_mul]
        exact ⟨rfl, rfl⟩
      | none =>
        rw [pressure_none hi, pressure_none hf, one_mul, one_mul]
        have same : ratesCT ro rel true d.reaction = ratesCT ro rel false d.reaction := by
          unfold ratesCT
          rw [h1]
          simp only [bind, Except.bind, h2, h3, hi, hf]
        change ratesCT ro rel true d.reaction = _ at hr
        rw [same, hk] at hr
        cases hr
        exact ⟨rfl, rfl⟩
  obtain ⟨e1, e2⟩ := key
  rw [e1, e2, (hd.before states is h1 h2 |>.map θ).prod_eq, (hd.after states fs h1 h3 |>.map θ).prod_eq,
    ← activity_split P Q cov θ τ is (fun f hf => (hg f (by simp [hf])).1) (fun f hf => hc f (by simp [hf])),
    ← activity_split P Q cov θ τ fs (fun f hf => (hg f (by simp [hf])).1) (fun f hf => hc f (by simp [hf]))]
  constructor <;> ring

/-- The rates of one reaction by either theory. -/
noncomputable def ratesBy (ro : RateOwner) (algo : RateAlgo) (rel : RelDict ℝ) (r : Str) : Py (ℝ × ℝ) :=
  match algo with
  | .TST => ratesTST ro rel false r
  | .CT => ratesCT ro rel false r
  | .other => .error .ValueError

theorem constants_by {ro : RateOwner} {algo : RateAlgo} {rel : RelDict ℝ} {kf kr : List ℝ} (hk : rateConstants ro algo rel = .ok (kf, kr)) :
    ∀ (i : Nat) (hi : i < ro.rxns.length), ∃ x y, ratesBy ro algo rel ro.rxns[i] = .ok (x, y) ∧ kf[i]? = some x ∧ kr[i]? = some y := by
  unfold rateConstants at hk
  rw [guard_ok] at hk
  obtain ⟨-, hk⟩ := hk
  cases algo with
  | other => exact nomatch hk
  | TST | CT =>
    rw [bind_ok] at hk
    obtain ⟨l, hl, hk⟩ := hk
    rw [pure_ok] at hk
    obtain ⟨rfl, rfl⟩ := Prod.mk.inj hk
    obtain ⟨m1, m2⟩ := mapM_ok_inv hl
    intro i hi
    have hi' : i < l.length := by omega
    exact ⟨l[i].1, l[i].2, m2 i hi hi', by simp [hi'], by simp [hi']⟩

/-- **C121** One process definition for each reaction: when the sites are independent, the mean number of sites taken by an adsorbate changes at the
rate that the mean field model gives, the net rate of each reaction being multiplied by the number of places of its process. Missing: as
above, with either theory of the rate constants, and redistribution processes and wildcards. -/
theorem C121_equations_partial (o : MFOwner ℝ) (total P Q : Str → ℝ) (h : Ready o total P Q)
    (hc : ∀ states ∈ o.net.rxns, RateClean states) (v : Str → ℝ) (ro : RateOwner) (hro : ro.rxns = o.rxns) (hP : Extends P ro.pressures)
    (algo : RateAlgo) (hct : algo = .CT → CollisionReady ro o.rxns)
    (rel : RelDict ℝ) (kf kr : List ℝ) (hk : rateConstants ro algo rel = .ok (kf, kr))
    {types : List Str} (hn : types.Nodup) (θ : Str → ℝ) (hθ : (types.map θ).sum = 1)
    (ds : List (ProcDict C)) (hds : ds.map (·.reaction) = o.rxns) (m0 m : List Str) (procs : List (KProc ℝ C))
    (hprocs : getProcesses (latticeOwner ro algo rel types) ds m0 = (.ok procs, m)) (place : C → Int → List (List S))
    (hd : ∀ d ∈ ds, d.redist = false ∧ ∀ x ∈ d.before ++ d.after, x ∈ types ∧ x ≠ ['*'])
    (hp : ∀ d ∈ ds, ∀ b ∈ d.basis, ∀ x ∈ d.coords, ∀ a ∈ place x b, a.Nodup ∧ d.before.length = a.length ∧ d.after.length = a.length)
    (τ : Str → Str) (hτ : ∀ f a, OccursIn o.rxns f → a ∈ o.net.ads → τ f.speciesSite = τ a → f.speciesSite = a)
    (hdep : ∀ d ∈ ds, Depicts τ θ (coverage o.net total v) d) :
    ∃ net, getNetRates o (kf, kr) (o.net.ads.map v) = .ok net ∧ net.length = o.rxns.length ∧ ∀ a ∈ o.net.ads,
      drift place procs types θ (τ a) = production o.net (List.zipWith (· * ·) (ds.map (shapeCount place)) net) a := by
  obtain ⟨rfs, rrs, g1, g2, g3, g4⟩ := C25_solver_constants_partial o total P Q h hc v ro hro algo rel kf kr hk
  refine ⟨List.zipWith (· - ·) rfs rrs, by unfold getNetRates; rw [g1]; rfl, by simp [g2, g3], ?_⟩
  intro a ha
  -- the rate constants
  have hkc : ∀ (i : Nat) (hi : i < o.rxns.length), ∃ x y, ratesBy ro algo rel o.rxns[i] = .ok (x, y) ∧ kf[i]? = some x ∧ kr[i]? = some y := by
    rw [← hro]
    exact constants_by hk
  -- the rates of the processes
  let R : Str → ℝ × ℝ := fun r => match kmcRates ro algo rel r with
    | .ok x => x
    | .error _ => (0, 0)
  have hR : ∀ d ∈ ds, (latticeOwner ro algo rel types).rates d.reaction = .ok (R d.reaction) := by
    intro d hdm
    have hacc := ((C51_accepted (latticeOwner ro algo rel types) ds m0).mp (by rw [hprocs]; rfl) d hdm).2.2.2
    show kmcRates ro algo rel d.reaction = .ok (R d.reaction)
    change (kmcRates ro algo rel d.reaction).isOk = true at hacc
    cases hx : kmcRates ro algo rel d.reaction with
    | ok x => simp only [R, hx]
    | error e => rw [hx] at hacc; exact nomatch hacc
  rw [C121_drift_partial _ ds m0 m procs hprocs hn θ hθ place hd hp R hR (τ a)]
  have hlen : ds.length = o.rxns.length := by rw [← hds, List.length_map]
  have hlr : o.net.rxns.length = o.rxns.length := length_rxns h.parse
  unfold production
  congr 1
  apply List.ext_getElem
  · simp [hlen, hlr, g2, g3]
  · intro i i1 i2
    have j1 : i < ds.length := by simpa using i1
    have j2 : i < o.rxns.length := by omega
    obtain ⟨states, is, fs, s1, s2, -, s4, s5, s6, s7⟩ := states_ok h.parse j2
    have hreact : ds[i].reaction = o.rxns[i] := by
      have := List.getElem_map (fun d : ProcDict C => d.reaction) (l := ds) (i := i) (h := by simpa using j1)
      simp only [hds] at this
      exact this.symm
    have hdm : ds[i] ∈ ds := List.getElem_mem j1
    obtain ⟨x, y, k1, k2, k3⟩ := hkc i j2
    obtain ⟨x', y', q1, q2, q3, q4⟩ := g4 i j2 states is fs s1 s4 s5
    rw [k2] at q1; cases q1
    rw [k3] at q2; cases q2
    have hdep1 := hdep _ hdm
    have hst : eqnFormulas ds[i].reaction = .ok states := by rw [hreact]; exact s1
    rw [← hreact] at k1
    have hRi := hR _ hdm
    obtain ⟨u1, u2⟩ : (R ds[i].reaction).1 * (ds[i].before.map θ).prod = x * stateActivity P Q (coverage o.net total v) is ∧
        (R ds[i].reaction).2 * (ds[i].after.map θ).prod = y * stateActivity P Q (coverage o.net total v) fs := by
      cases algo with
      | TST =>
        exact C121_rates_partial ro rel P Q (coverage o.net total v) θ hP τ ds[i] hdep1 states is fs hst s4 s5
          x y _ _ k1 hRi
      | CT =>
        exact C121_collision_rates_partial ro rel P Q (coverage o.net total v) θ hP τ ds[i] hdep1
          ⟨(hct rfl).1, fun r hr => (hct rfl).2 r (by rw [List.mem_singleton.mp hr, hreact]; exact List.getElem_mem j2)⟩ states is fs hst s4 s5
          x y _ _ k1 hRi
      | other => exact nomatch k1
    have gasne : ∀ f, OccursIn o.rxns f → f.type = .gas → f.speciesSite ≠ a := by
      intro f hf ht e
      have := (C08_listed_exactly_once o.rxns o.net h.parse f hf .ads).mp (by rw [e]; exact ha)
      have hs : f.site = ['g'] := by
        by_contra hn
        unfold Formula.type at ht
        rw [if_neg hn] at ht
        split at ht
        · exact nomatch ht
        · split at ht <;> exact nomatch ht
      have h3 := this.1
      unfold specKind at h3
      rw [if_pos (show f.site = str! "g" from hs)] at h3
      exact nomatch h3
    have c1 : ds[i].before.count (τ a) = totalCoef a is := by
      rw [(hdep1.before states is hst s4).count_eq]
      exact count_surface τ a is (fun f hf => gasne f (s6 f hf)) (fun f hf _ => hτ f a (s6 f hf) ha)
    have c2 : ds[i].after.count (τ a) = totalCoef a fs := by
      rw [(hdep1.after states fs hst s5).count_eq]
      exact count_surface τ a fs (fun f hf => gasne f (s7 f hf)) (fun f hf _ => hτ f a (s7 f hf) ha)
    have hri : o.net.rxns[i]'(by omega) = states := by
      obtain ⟨_, e⟩ := List.getElem?_eq_some_iff.mp s2
      exact e
    have r1 : rfs[i]'(by omega) = x * stateActivity P Q (coverage o.net total v) is := by
      obtain ⟨_, e⟩ := List.getElem?_eq_some_iff.mp q3
      exact e
    have r2 : rrs[i]'(by omega) = y * stateActivity P Q (coverage o.net total v) fs := by
      obtain ⟨_, e⟩ := List.getElem?_eq_some_iff.mp q4
      exact e
    rw [List.getElem_map, List.getElem_zipWith, List.getElem_zipWith, List.getElem_zipWith, List.getElem_map, hri, r1, r2, u1, u2, c1, c2]
    unfold produced
    rw [s4, s5]
    simp only [stateCoef]
    push_cast
    ring

/-- **C121** If each process has as many places as there are sites, then the mean coverages of independent sites change exactly as the mean field
equations say. Missing: as above, and adsorbates on both sides of a reaction (`C26`); processes with more places
than sites are refuted below. -/
theorem C121_agreement_partial (o : MFOwner ℝ) (total P Q : Str → ℝ) (h : Ready o total P Q)
    (hc : ∀ states ∈ o.net.rxns, RateClean states) (hone : ∀ a ∈ o.net.ads, ∀ states ∈ o.net.rxns, OneSided a states)
    (v : Str → ℝ) (ro : RateOwner) (hro : ro.rxns = o.rxns) (hP : Extends P ro.pressures)
    (algo : RateAlgo) (hct : algo = .CT → CollisionReady ro o.rxns)
    (rel : RelDict ℝ) (kf kr : List ℝ) (hk : rateConstants ro algo rel = .ok (kf, kr))
    {types : List Str} (hn : types.Nodup) (θ : Str → ℝ) (hθ : (types.map θ).sum = 1)
    (ds : List (ProcDict C)) (hds : ds.map (·.reaction) = o.rxns) (m0 m : List Str) (procs : List (KProc ℝ C))
    (hprocs : getProcesses (latticeOwner ro algo rel types) ds m0 = (.ok procs, m)) (place : C → Int → List (List S))
    (hd : ∀ d ∈ ds, d.redist = false ∧ ∀ x ∈ d.before ++ d.after, x ∈ types ∧ x ≠ ['*'])
    (hp : ∀ d ∈ ds, ∀ b ∈ d.basis, ∀ x ∈ d.coords, ∀ a ∈ place x b, a.Nodup ∧ d.before.length = a.length ∧ d.after.length = a.length)
    (τ : Str → Str) (hτ : ∀ f a, OccursIn o.rxns f → a ∈ o.net.ads → τ f.speciesSite = τ a → f.speciesSite = a)
    (hdep : ∀ d ∈ ds, Depicts τ θ (coverage o.net total v) d) (z : ℝ)
    (hN : ∀ d ∈ ds, shapeCount place d = z * (Fintype.card S : ℝ)) (hS : 0 < Fintype.card S) :
    ∃ dθ, steadyStateFunction o (kf, kr) (o.net.ads.map v) = .ok dθ ∧ dθ.length = o.net.ads.length ∧
      ∀ (i : Nat) (a : Str) (y : ℝ), o.net.ads[i]? = some a → dθ[i]? = some y →
        drift place procs types θ (τ a) / (Fintype.card S : ℝ) = z * y := by
  obtain ⟨net, h1, h2, h3⟩ := C121_equations_partial o total P Q h hc v ro hro hP algo hct rel kf kr hk hn θ hθ ds hds m0 m procs hprocs
    place hd hp τ hτ hdep
  obtain ⟨-, -, κf, κr, hκf, hκr⟩ := kOk_rateConstants hk
  rw [hro] at hκf hκr
  obtain ⟨net', h1', -, h3'⟩ := C26_derivatives_partial o total P Q h hc v kf kr κf κr hκf hκr hone
  rw [h1] at h1'
  cases h1'
  refine ⟨_, h3', by simp, ?_⟩
  intro i a y hi hy
  rw [List.getElem?_map, hi] at hy
  cases hy
  rw [h3 a (List.mem_of_getElem? hi)]
  have hS' : (Fintype.card S : ℝ) ≠ 0 := by exact_mod_cast hS.ne'
  rw [div_eq_iff hS']
  have hz : List.zipWith (· * ·) (ds.map (shapeCount place)) net = net.map (z * (Fintype.card S : ℝ) * ·) := by
    apply List.ext_getElem
    · have : ds.length = o.rxns.length := by rw [← hds, List.length_map]
      simp [this, h2]
    · intro j j1 j2
      rw [List.getElem_zipWith, List.getElem_map, List.getElem_map, hN _ (List.getElem_mem _)]
  rw [hz]
  unfold production
  generalize o.net.rxns = rs
  clear hz h1 h2 h3 h3'
  induction rs generalizing net with
  | nil => simp
  | cons st rs ih =>
    cases net with
    | nil => simp
    | cons r net =>
      simp only [List.map_cons, List.zipWith_cons_cons, List.sum_cons]
      rw [ih]
      ring

/-! ### oxygen on a ring of three sites -/

def exOxRxn : Str := str! "O2_g + 2*_s -> 2O_s"
def exOxNet : Network := netOf [exOxRxn]
noncomputable def exOxMF : MFOwner ℝ := ⟨[exOxRxn], exOxNet, [(str! "*_s", 1)], [(str! "O2_g", 3)], []⟩
noncomputable def exOxOwner : RateOwner := ⟨[exOxRxn], 450, [(str! "O2_g", 3)], 0, 0, false⟩
noncomputable def exOxRel : RelDict ℝ := ⟨some [1], some [2], some [-1]⟩
/-- A site and its right neighbour, or its left neighbour. -/
def exOxPlace : Nat → Int → List (List (Fin 3))
  | 0, _ => [[0, 1], [1, 2], [2, 0]]
  | _, _ => [[0, 2], [1, 0], [2, 1]]
def exOxDicts (coords : List Nat) : List (ProcDict Nat) :=
  [⟨exOxRxn, coords, [str! "V", str! "V"], [str! "O", str! "O"], false, [0], false, false⟩]
def exOxType (x : Str) : Str := if x = str! "O_s" then str! "O" else if x = str! "*_s" then str! "V" else x
noncomputable def exOxTheta (v : ℝ) (t : Str) : ℝ := if t = str! "O" then v else if t = str! "V" then 1 - v else 0

theorem exOx_parse : parseNetwork [exOxRxn] = .ok exOxNet := by
  have h : (parseNetwork [exOxRxn]).isOk = true := by decide
  unfold exOxNet netOf
  cases h' : parseNetwork [exOxRxn] with
  | ok n => rfl
  | error e => rw [h'] at h; exact nomatch h

theorem exOx_states : eqnFormulas exOxRxn = .ok [[⟨str! "O2_g", 1, str! "O2", 1, str! "g", str! "O2_g"⟩, ⟨str! "2*_s", 2, str! "*", 1, str! "s", str! "*_s"⟩],
    [⟨str! "2O_s", 2, str! "O", 1, str! "s", str! "O_s"⟩]] := by decide

theorem exOx_ready : Ready exOxMF (fun _ => 1) (fun _ => 3) (fun _ => 0) := by
  refine ⟨exOx_parse, ?_, ?_, ?_⟩
  · have : exOxNet.sites = [str! "*_s"] := by decide
    intro s hs
    change s ∈ exOxNet.sites at hs
    rw [this] at hs
    simp at hs
    subst hs
    rfl
  · have : exOxNet.gas = [str! "O2_g"] := by decide
    intro s hs
    change s ∈ exOxNet.gas at hs
    rw [this] at hs
    simp at hs
    subst hs
    rfl
  · have : exOxNet.liq = [] := by decide
    intro s hs
    change s ∈ exOxNet.liq at hs
    rw [this] at hs
    exact nomatch hs

theorem exOx_constants : ∃ x y : ℝ, 0 < x ∧ rateConstants exOxOwner .TST exOxRel = .ok ([x], [y]) ∧
    ratesTST exOxOwner exOxRel false exOxRxn = .ok (x, y) := by
  have hT : exOxOwner.T ≠ 0 := by norm_num [exOxOwner]
  refine ⟨kBeV * 450 / heV * Real.exp (-1 / (kBeV * 450)), kBeV * 450 / heV * Real.exp (-2 / (kBeV * 450)), ?_, ?_, ?_⟩
  · have := kBeV_pos
    have := heV_pos
    positivity
  all_goals
    have h : ratesTST exOxOwner exOxRel false exOxRxn
      = .ok (kBeV * 450 / heV * Real.exp (-1 / (kBeV * 450)), kBeV * 450 / heV * Real.exp (-2 / (kBeV * 450))) :=
      ratesTST_ok.mpr ⟨⟨1, 2, -1⟩, by
        unfold relOf
        rw [if_neg (by simp [exOxOwner])]
        rfl, (kTST_ok hT).mpr rfl, (kTST_ok hT).mpr rfl⟩
  · unfold rateConstants
    rw [if_neg (by simp [exOxRel])]
    show ([exOxRxn].mapM (ratesTST exOxOwner exOxRel false) >>= _) = _
    rw [List.mapM_cons, h]
    rfl
  · exact h

theorem exOx_procs (coords : List Nat) : ∃ procs m,
    getProcesses (latticeOwner exOxOwner .TST exOxRel [str! "V", str! "O"]) (exOxDicts coords) [] = (.ok procs, m) := by
  obtain ⟨x, y, -, -, hk⟩ := exOx_constants
  have hall := (C51_accepted (latticeOwner exOxOwner .TST exOxRel [str! "V", str! "O"]) (exOxDicts coords) []).mpr (by
    intro d hd
    simp only [exOxDicts, List.mem_cons, List.not_mem_nil, or_false] at hd
    subst hd
    refine ⟨by simp [latticeOwner, exOxOwner], rfl, by simp [latticeOwner], ?_⟩
    show (ratesTST exOxOwner exOxRel true exOxRxn).isOk = true
    rw [(C21_written exOxOwner _ exOxRxn x y _ _ _ exOx_states rfl rfl hk).1 (fun _ => 3) (by
      intro g hg ht
      have : g.text = str! "O2_g" := by
        revert g; decide
      rw [this]
      rfl)]
    rfl)
  cases h : getProcesses (latticeOwner exOxOwner .TST exOxRel [str! "V", str! "O"]) (exOxDicts coords) [] with
  | mk a m =>
    rw [h] at hall
    cases a with
    | error e => exact nomatch hall
    | ok procs => exact ⟨procs, m, rfl⟩

/-- All hypotheses hold for oxygen on the ring, whatever its coverage, with one neighbour and with both, and with both theories. -/
theorem exOx_core (ro : RateOwner) (hro : ro.rxns = [exOxRxn]) (hpr : ro.pressures = [(str! "O2_g", 3)]) (algo : RateAlgo)
    (hct : algo = .CT → CollisionReady ro [exOxRxn]) (rel : RelDict ℝ) (coords : List Nat) (v x y : ℝ)
    (hk : rateConstants ro algo rel = .ok ([x], [y])) (procs : List (KProc ℝ Nat)) (m : List Str)
    (hprocs : getProcesses (latticeOwner ro algo rel [str! "V", str! "O"]) (exOxDicts coords) [] = (.ok procs, m)) :
    steadyStateFunction exOxMF ([x], [y]) [v] = .ok [2 * (3 * x * (1 - v) ^ 2 - y * v ^ 2)] ∧
    drift exOxPlace procs [str! "V", str! "O"] (exOxTheta v) (str! "O") / 3 = coords.length * (2 * (3 * x * (1 - v) ^ 2 - y * v ^ 2)) := by
  have hads : exOxMF.net.ads = [str! "O_s"] := by show exOxNet.ads = _; decide
  have hrx : exOxMF.net.rxns = [[[⟨str! "O2_g", 1, str! "O2", 1, str! "g", str! "O2_g"⟩, ⟨str! "2*_s", 2, str! "*", 1, str! "s", str! "*_s"⟩],
      [⟨str! "2O_s", 2, str! "O", 1, str! "s", str! "O_s"⟩]]] := by show exOxNet.rxns = _; decide
  have hclean : ∀ states ∈ exOxMF.net.rxns, RateClean states := by
    rw [hrx]
    intro st hst
    refine rateClean_of ?_
    simp only [List.mem_cons, List.not_mem_nil, or_false] at hst
    subst hst
    decide
  have hone : ∀ a ∈ exOxMF.net.ads, ∀ states ∈ exOxMF.net.rxns, OneSided a states := by
    rw [hrx, hads]
    intro a ha st hst
    simp only [List.mem_cons, List.not_mem_nil, or_false] at hst ha
    subst hst ha
    refine oneSided_of ?_
    decide
  have hcovO : coverage exOxMF.net (fun _ => (1 : ℝ)) (fun _ => v) (str! "O_s") = v := by
    unfold coverage; rw [hads]; exact if_pos (by simp)
  have hcovV : coverage exOxMF.net (fun _ => (1 : ℝ)) (fun _ => v) (str! "*_s") = 1 - v := by
    unfold coverage; rw [hads, if_neg (by decide)]
    rw [List.filter_cons_of_pos (by decide)]
    simp
  obtain ⟨rfs, rrs, g1, g2, g3, g4⟩ := C25_solver_constants_partial exOxMF _ _ _ exOx_ready hclean (fun _ => v) ro hro algo rel [x] [y] hk
  obtain ⟨x', y', k1, k2, r1, r2⟩ := g4 0 (by simp [exOxMF]) _ _ _ exOx_states rfl rfl
  cases k1
  cases k2
  have hrf : rfs = [3 * x * (1 - v) ^ 2] := by
    match rfs, g2, r1 with
    | [a], _, r1 =>
      have := Option.some.inj r1
      rw [this]
      simp [stateActivity, specAct, specKind, hcovV]
      ring
  have hrr : rrs = [y * v ^ 2] := by
    match rrs, g3, r2 with
    | [a], _, r2 =>
      have := Option.some.inj r2
      rw [this]
      simp [stateActivity, specAct, specKind, hcovO]
  obtain ⟨-, -, κf, κr, hκf, hκr⟩ := kOk_rateConstants hk
  rw [hro] at hκf hκr
  obtain ⟨net, n1, -, n3⟩ := C26_derivatives_partial exOxMF _ _ _ exOx_ready hclean (fun _ => v) [x] [y] κf κr hκf hκr hone
  have hnet : net = [3 * x * (1 - v) ^ 2 - y * v ^ 2] := by
    unfold getNetRates at n1
    rw [g1, hrf, hrr] at n1
    exact (Except.ok.inj n1).symm
  have hst : steadyStateFunction exOxMF ([x], [y]) [v] = .ok [2 * (3 * x * (1 - v) ^ 2 - y * v ^ 2)] := by
    rw [hads] at n3
    refine n3.trans ?_
    rw [hnet]
    unfold production
    rw [hrx]
    simp [produced, stateCoef, totalCoef]
  refine ⟨hst, ?_⟩
  have hcoords : ∀ d ∈ exOxDicts coords, d = ⟨exOxRxn, coords, [str! "V", str! "V"], [str! "O", str! "O"], false, [0], false, false⟩ := by
    intro d hd
    simpa [exOxDicts] using hd
  have hlen : ∀ c b, (exOxPlace c b).length = 3 := by
    intro c b
    unfold exOxPlace
    split <;> rfl
  obtain ⟨dθ, d1, d2, d3⟩ := C121_agreement_partial exOxMF _ _ _ exOx_ready hclean hone (fun _ => v) ro hro
    (by
      intro k w hk
      simp only [hpr, get?] at hk
      split at hk
      · cases hk; rfl
      · exact nomatch hk) algo hct rel [x] [y] hk (types := [str! "V", str! "O"]) (by decide) (exOxTheta v)
    (by simp [exOxTheta]) (exOxDicts coords) rfl [] m procs hprocs exOxPlace
    (by
      intro d hd
      rw [hcoords d hd]
      refine ⟨rfl, ?_⟩
      simp)
    (by
      intro d hd b _ c _ a ha
      rw [hcoords d hd]
      show a.Nodup ∧ 2 = a.length ∧ 2 = a.length
      unfold exOxPlace at ha
      split at ha <;> (revert a; decide))
    exOxType
    (by
      intro f a hf ha he
      rw [hads] at ha
      simp only [List.mem_cons, List.not_mem_nil, or_false] at ha
      subst ha
      unfold exOxType at he
      rw [if_pos rfl] at he
      split at he
      · assumption
      · split at he
        · exact absurd he (by decide)
        · rename_i h1 h2
          obtain ⟨r, hr, st, hst, fs, hfs, hff⟩ := hf
          have hr : r = exOxRxn := by simpa [exOxMF] using hr
          rw [hr, exOx_states] at hst
          cases hst
          have hall : ∀ fs ∈ [[(⟨str! "O2_g", 1, str! "O2", 1, str! "g", str! "O2_g"⟩ : Formula), ⟨str! "2*_s", 2, str! "*", 1, str! "s", str! "*_s"⟩],
              [⟨str! "2O_s", 2, str! "O", 1, str! "s", str! "O_s"⟩]], ∀ f ∈ fs, f.speciesSite ≠ str! "O" := by decide
          exact absurd he (hall fs hfs f hff))
    (by
      intro d hd
      rw [hcoords d hd]
      refine ⟨?_, ?_, ?_, ?_⟩
      · intro states is s1 s2
        rw [show eqnFormulas _ = _ from exOx_states] at s1
        cases s1; cases s2
        show List.Perm [str! "V", str! "V"] _
        rw [show surfaceTypes exOxType _ = [str! "V", str! "V"] from by decide]
      · intro states fs s1 s2
        rw [show eqnFormulas _ = _ from exOx_states] at s1
        cases s1; cases s2
        show List.Perm [str! "O", str! "O"] _
        rw [show surfaceTypes exOxType _ = [str! "O", str! "O"] from by decide]
      · intro states is fs s1 s2 s3
        rw [show eqnFormulas _ = _ from exOx_states] at s1
        cases s1; cases s2; cases s3
        decide
      · intro states is fs s1 s2 s3 f hf hg
        rw [show eqnFormulas _ = _ from exOx_states] at s1
        cases s1; cases s2; cases s3
        change f ∈ [(⟨str! "O2_g", 1, str! "O2", 1, str! "g", str! "O2_g"⟩ : Formula), ⟨str! "2*_s", 2, str! "*", 1, str! "s", str! "*_s"⟩,
          ⟨str! "2O_s", 2, str! "O", 1, str! "s", str! "O_s"⟩] at hf
        simp only [List.mem_cons, List.not_mem_nil, or_false] at hf
        rcases hf with rfl | rfl | rfl
        · exact absurd (by decide) hg
        · exact Eq.trans (by simp [exOxType, exOxTheta]) hcovV.symm
        · exact Eq.trans (by simp [exOxType, exOxTheta]) hcovO.symm)
    coords.length
    (by
      intro d hd
      rw [hcoords d hd]
      unfold shapeCount
      simp [hlen, Function.comp_def])
    (by simp)
  rw [hads] at d1
  rw [show List.map (fun _ => v) [str! "O_s"] = [v] from rfl, hst] at d1
  cases d1
  have := d3 0 (str! "O_s") _ (by rw [hads]; rfl) rfl
  rw [show exOxType (str! "O_s") = str! "O" from rfl] at this
  simpa using this

theorem exOx_agrees (coords : List Nat) (v : ℝ) : ∃ x y procs m, 0 < x ∧ rateConstants exOxOwner .TST exOxRel = .ok ([x], [y]) ∧
    getProcesses (latticeOwner exOxOwner .TST exOxRel [str! "V", str! "O"]) (exOxDicts coords) [] = (.ok procs, m) ∧
    steadyStateFunction exOxMF ([x], [y]) [v] = .ok [2 * (3 * x * (1 - v) ^ 2 - y * v ^ 2)] ∧
    drift exOxPlace procs [str! "V", str! "O"] (exOxTheta v) (str! "O") / 3 = coords.length * (2 * (3 * x * (1 - v) ^ 2 - y * v ^ 2)) := by
  obtain ⟨x, y, hx, hk, -⟩ := exOx_constants
  obtain ⟨procs, m, hprocs⟩ := exOx_procs coords
  exact ⟨x, y, procs, m, hx, hk, hprocs, exOx_core exOxOwner rfl rfl .TST (fun e => nomatch e) exOxRel coords v x y hk procs m hprocs⟩

/-- One neighbour: the lattice follows the mean field equations. -/
example (v : ℝ) : ∃ x y procs m, 0 < x ∧ rateConstants exOxOwner .TST exOxRel = .ok ([x], [y]) ∧
    getProcesses (latticeOwner exOxOwner .TST exOxRel [str! "V", str! "O"]) (exOxDicts [0]) [] = (.ok procs, m) ∧
    steadyStateFunction exOxMF ([x], [y]) [v] = .ok [2 * (3 * x * (1 - v) ^ 2 - y * v ^ 2)] ∧
    drift exOxPlace procs [str! "V", str! "O"] (exOxTheta v) (str! "O") / 3 = 2 * (3 * x * (1 - v) ^ 2 - y * v ^ 2) := by
  obtain ⟨x, y, procs, m, h1, h2, h3, h4, h5⟩ := exOx_agrees [0] v
  exact ⟨x, y, procs, m, h1, h2, h3, h4, by simpa using h5⟩

def fO2 : Formula := ⟨str! "O2_g", 1, str! "O2", 1, str! "g", str! "O2_g"⟩
theorem db_O2 : InDatabase (str! "O2_g") fO2 2 [52 / 25] [2278] (319988 / 10000) :=
  ⟨by decide, by decide, by decide +kernel, by decide +kernel, by decide +kernel⟩

/-- Collision theory for oxygen at three atmospheres. -/
noncomputable def exOxHot : RateOwner := ⟨[exOxRxn], 450, [(str! "O2_g", 3)], 6e-20, 1 / 2, true⟩

theorem exOxHot_rates (b : Bool) : ∃ rf rr, 0 < rf ∧ ratesCT exOxHot exOxRel b exOxRxn = .ok (rf, rr) := by
  have hm : (0 : ℝ) < amu * ((319988 / 10000 : ℚ) : ℝ) := by
    have := amu_pos
    have h2 : (0 : ℝ) < ((319988 / 10000 : ℚ) : ℝ) := by norm_num
    positivity
  have hfind : List.find? (fun x : Formula => decide (x.type = .gas))
      [fO2, ⟨str! "2*_s", 2, str! "*", 1, str! "s", str! "*_s"⟩] = some fO2 := by decide
  have hrel : relOf exOxHot.rxns exOxRel exOxRxn = .ok (⟨1, 2, -1⟩ : Rel1 ℝ) :=
    relOf_ok.mpr ⟨by simp [exOxHot], _, _, _, rfl, rfl, rfl, by simp [exOxHot]⟩
  obtain ⟨q, hq, pp⟩ : ∃ q, pressureCT exOxHot b fO2.text = .ok q ∧ 0 < q := by
    cases b
    · exact ⟨P0, rfl, P0_pos⟩
    · exact ⟨P0 * 3, rfl, mul_pos P0_pos (by norm_num)⟩
  obtain ⟨k, hk, kp, -⟩ := C20_bounded 1 6e-20 (1 / 2) (amu * ((319988 / 10000 : ℚ) : ℝ)) 450 q 1
    (by norm_num) (by norm_num) (by norm_num) hm (by norm_num) pp (by norm_num) (by norm_num)
  obtain ⟨g, hg, -⟩ := C19_rate_of_barrier k 450 kp (by norm_num)
  obtain ⟨c, hc⟩ := C67_defined_partial db_O2 exOxHot.pressures 450 q (by norm_num) pp (by
    intro _ t ht; simp only [List.mem_singleton] at ht; subst ht; norm_num)
  refine ⟨k, ?_⟩
  unfold ratesCT
  rw [show eqnFormulas exOxRxn = .ok [[fO2, ⟨str! "2*_s", 2, str! "*", 1, str! "s", str! "*_s"⟩],
    [⟨str! "2O_s", 2, str! "O", 1, str! "s", str! "O_s"⟩]] from exOx_states, hrel]
  simp only [bind, Except.bind, List.head?_cons, List.getLast?_cons_cons, List.getLast?_singleton]
  rw [hfind, if_neg (by norm_num [exOxHot]), if_neg (by simp [exOxHot])]
  simp only [show molecularMass fO2.species = _ from db_O2.mass, hq,
    show kCT 1 exOxHot.area exOxHot.actRatio (amu * ((319988 / 10000 : ℚ) : ℝ)) exOxHot.T q 1 = .ok k from hk,
    show barrierFromCT k exOxHot.T = _ from hg, show entropyCorrection exOxHot.pressures exOxHot.T (some q) fO2.text = .ok c from hc]
  rw [(kTST_ok (by norm_num [exOxHot])).mpr rfl]
  exact ⟨_, kp, rfl⟩

/-- With collision theory in both models the lattice follows the mean field equations too. -/
example (v : ℝ) : ∃ x y procs m, 0 < x ∧ rateConstants exOxHot .CT exOxRel = .ok ([x], [y]) ∧
    getProcesses (latticeOwner exOxHot .CT exOxRel [str! "V", str! "O"]) (exOxDicts [0]) [] = (.ok procs, m) ∧
    steadyStateFunction exOxMF ([x], [y]) [v] = .ok [2 * (3 * x * (1 - v) ^ 2 - y * v ^ 2)] ∧
    drift exOxPlace procs [str! "V", str! "O"] (exOxTheta v) (str! "O") / 3 = 2 * (3 * x * (1 - v) ^ 2 - y * v ^ 2) := by
  obtain ⟨x, y, hx, hxy⟩ := exOxHot_rates false
  obtain ⟨rf, rr, -, hr⟩ := exOxHot_rates true
  have hk : rateConstants exOxHot .CT exOxRel = .ok ([x], [y]) := by
    unfold rateConstants
    rw [if_neg (by simp [exOxRel])]
    show ([exOxRxn].mapM (ratesCT exOxHot exOxRel false) >>= _) = _
    rw [List.mapM_cons, hxy]
    rfl
  have hall := (C51_accepted (latticeOwner exOxHot .CT exOxRel [str! "V", str! "O"]) (exOxDicts [0]) []).mpr (by
    intro d hd
    simp only [exOxDicts, List.mem_cons, List.not_mem_nil, or_false] at hd
    subst hd
    refine ⟨by simp [latticeOwner, exOxHot], rfl, by simp [latticeOwner], ?_⟩
    show (ratesCT exOxHot exOxRel true exOxRxn).isOk = true
    rw [hr]
    rfl)
  cases h : getProcesses (latticeOwner exOxHot .CT exOxRel [str! "V", str! "O"]) (exOxDicts [0]) [] with
  | mk a m =>
    rw [h] at hall
    cases a with
    | error e => exact nomatch hall
    | ok procs =>
      have hct : CollisionReady exOxHot [exOxRxn] := by
        refine ⟨by norm_num [exOxHot], ?_⟩
        intro r hr states is fs s1 s2 s3
        rw [List.mem_singleton.mp hr, exOx_states] at s1
        cases s1; cases s2; cases s3
        refine ⟨by decide, ?_⟩
        intro f hf ht
        have : f.text = str! "O2_g" := by
          revert f; decide
        rw [this]
        exact ⟨3, rfl, by norm_num, _, _, _, _, _, db_O2⟩
      obtain ⟨e1, e2⟩ := exOx_core exOxHot rfl rfl .CT (fun _ => hct) exOxRel [0] v x y hk procs m h
      exact ⟨x, y, procs, m, hx, hk, rfl, e1, by simpa using e2⟩

/-- **C121** With a process for each of the two neighbours of a site, as a process definition with two groups of coordinates gives them, the
lattice model reacts twice as fast as the mean field model of the same reaction with the same energies. -/
theorem C121_neighbours_refuted : ∃ x y procs m d, rateConstants exOxOwner .TST exOxRel = .ok ([x], [y]) ∧
    getProcesses (latticeOwner exOxOwner .TST exOxRel [str! "V", str! "O"]) (exOxDicts [0, 1]) [] = (.ok procs, m) ∧
    steadyStateFunction exOxMF ([x], [y]) [0] = .ok [d] ∧ 0 < d ∧
    drift exOxPlace procs [str! "V", str! "O"] (exOxTheta 0) (str! "O") / 3 = 2 * d ∧
    drift exOxPlace procs [str! "V", str! "O"] (exOxTheta 0) (str! "O") / 3 ≠ d := by
  obtain ⟨x, y, procs, m, h1, h2, h3, h4, h5⟩ := exOx_agrees [0, 1] 0
  have hd : 0 < 2 * (3 * x * (1 - 0 : ℝ) ^ 2 - y * 0 ^ 2) := by nlinarith
  refine ⟨x, y, procs, m, _, h2, h3, h4, hd, by simpa using h5, ?_⟩
  rw [h5]
  simp only [List.length_cons, List.length_nil, Nat.cast_add, Nat.cast_one, Nat.cast_zero]
  intro h
  nlinarith

end Verif
