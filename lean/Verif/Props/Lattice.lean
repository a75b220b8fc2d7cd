import Verif.Model.KmcRates
import Verif.Props.Kmc
import Verif.Props.Rates
import Verif.Props.Exact3
import Mathlib.Algebra.BigOperators.Ring.Finset
import Mathlib.Data.Fintype.BigOperators
import Mathlib.Data.Fintype.Pi
import Mathlib.Analysis.SpecialFunctions.Log.Basic
/-
Property C120: the processes handed to the Monte Carlo engine have the right equilibrium. The engine itself is not
modelled; what follows is about the jump process that the list of processes defines.
-/
namespace Verif
open Dict Classical
set_option linter.unusedSectionVars false

variable {S C : Type}

/-! ### specification: the jump process of a list of processes -/

/-- One site: the type before is the one asked for, or any; the type after is the one given, or the same as before. -/
def SiteChange (b e x y : Str) : Prop := (b = ['*'] ∨ x = b) ∧ y = if e = ['*'] then x else e

/-- The configuration `c` becomes `c'` when the process happens at the sites `a`. -/
structure Moves (before after : List Str) (a : List S) (c c' : S → Str) : Prop where
  lenBefore : before.length = a.length
  lenAfter : after.length = a.length
  at_ : ∀ (j : Nat) (b e : Str) (s : S), before[j]? = some b → after[j]? = some e → a[j]? = some s → SiteChange b e (c s) (c' s)
  rest : ∀ s, s ∉ a → c' s = c s

/-- Rate of the jump from `c` to `c'`: the rates of all processes at all places where they do this. `place` gives, for the
coordinates of a process and its basis site, the lists of sites of the lattice that have this shape. -/
noncomputable def jumpRate (place : C → Int → List (List S)) (procs : List (KProc ℝ C)) (c c' : S → Str) : ℝ :=
  (procs.map fun p => ((place p.coords p.basis).map fun a => if Moves p.before p.after a c c' then p.rate else 0).sum).sum

/-- Boltzmann weight of a configuration for energies of the element types. -/
noncomputable def latticeWeight [Fintype S] (kT : ℝ) (φ : Str → ℝ) (c : S → Str) : ℝ := Real.exp (-(∑ s, φ (c s)) / kT)

/-- Energy of a list of element types. -/
def typesEnergy (φ : Str → ℝ) (l : List Str) : ℝ := (l.map φ).sum

/-- The wildcard stands at the same positions before and after. -/
def WildSame (before after : List Str) : Prop :=
  before.length = after.length ∧ ∀ (j : Nat) (b e : Str), before[j]? = some b → after[j]? = some e → (b = ['*'] ↔ e = ['*'])

/-! ### helpers -/

theorem WildSame.symm {b e : List Str} (h : WildSame b e) : WildSame e b :=
  ⟨h.1.symm, fun j x y hx hy => (h.2 j y x hy hx).symm⟩

theorem siteChange_swap {b e x y : Str} (h : b = ['*'] ↔ e = ['*']) : SiteChange b e x y → SiteChange e b y x := by
  rintro ⟨h1, h2⟩
  unfold SiteChange
  by_cases hb : b = ['*']
  · have he := h.mp hb
    rw [if_pos he] at h2
    exact ⟨Or.inl he, by rw [if_pos hb, h2]⟩
  · have he : e ≠ ['*'] := fun e => hb (h.mpr e)
    rw [if_neg he] at h2
    exact ⟨Or.inr h2, by rw [if_neg hb]; exact h1.resolve_left hb⟩

theorem moves_swap {b e : List Str} {a : List S} {c c' : S → Str} (h : WildSame b e) (hm : Moves b e a c c') : Moves e b a c' c :=
  ⟨hm.lenAfter, hm.lenBefore, fun j x y s hx hy hs => siteChange_swap (h.2 j y x hy hx) (hm.at_ j y x s hy hx hs),
    fun s hs => (hm.rest s hs).symm⟩

theorem moves_iff {b e : List Str} {a : List S} {c c' : S → Str} (h : WildSame b e) : Moves b e a c c' ↔ Moves e b a c' c :=
  ⟨moves_swap h, moves_swap h.symm⟩

/-- A jump changes the energy of the configuration by the energy of the types after less that of the types before. -/
theorem moves_energy [Fintype S] {b e : List Str} {a : List S} {c c' : S → Str} (φ : Str → ℝ) (ha : a.Nodup) (h : WildSame b e)
    (hm : Moves b e a c c') : (∑ s, φ (c' s)) - ∑ s, φ (c s) = typesEnergy φ e - typesEnergy φ b := by
  have h1 : (∑ s, φ (c' s)) - ∑ s, φ (c s) = ∑ s ∈ a.toFinset, (φ (c' s) - φ (c s)) := by
    rw [← Finset.sum_sub_distrib]
    refine (Finset.sum_subset (Finset.subset_univ _) ?_).symm
    intro s _ hs
    rw [hm.rest s (by simpa using hs), sub_self]
  rw [h1, List.sum_toFinset _ ha]
  unfold typesEnergy
  obtain ⟨l1, l2, at_, -⟩ := hm
  obtain ⟨-, hw⟩ := h
  clear h1 ha
  induction a generalizing b e with
  | nil =>
    rw [List.length_nil, List.length_eq_zero_iff] at l1 l2
    simp [l1, l2]
  | cons s a ih =>
    cases b with
    | nil => cases l1
    | cons x b =>
      cases e with
      | nil => cases l2
      | cons y e =>
        simp only [List.map_cons, List.sum_cons]
        rw [ih (Nat.succ.inj l1) (Nat.succ.inj l2) (fun j x y s hx hy hs => at_ (j + 1) x y s (by simpa using hx) (by simpa using hy) (by simpa using hs))
          (fun j x y hx hy => hw (j + 1) x y (by simpa using hx) (by simpa using hy))]
        have h0 := at_ 0 x y s rfl rfl rfl
        have hx := hw 0 x y rfl rfl
        have : φ (c' s) - φ (c s) = φ y - φ x := by
          by_cases hb : x = ['*']
          · have he := hx.mp hb
            have := h0.2
            rw [if_pos he] at this
            rw [this, hb, he]; ring
          · have he : y ≠ ['*'] := fun e => hb (hx.mpr e)
            have := h0.2
            rw [if_neg he] at this
            rw [this, h0.1.resolve_left hb]
        rw [this]; ring

theorem mul_list_sum {α : Type} (l : List α) (f : α → ℝ) (w : ℝ) : w * (l.map f).sum = (l.map fun x => w * f x).sum := by
  induction l with
  | nil => simp
  | cons x l ih => simp [mul_add, ih]

/-- Balance of a list of processes from the balance of each definition. -/
theorem lattice_balance [Fintype S] (o : KmcOwner ℝ) (kT : ℝ) (φ : Str → ℝ) (place : C → Int → List (List S))
    (hplace : ∀ x b, ∀ a ∈ place x b, a.Nodup) (ds : List (ProcDict C)) (m0 m : List Str) (procs : List (KProc ℝ C))
    (h : getProcesses o ds m0 = (.ok procs, m))
    (hd : ∀ d ∈ ds, d.redist = false ∧ WildSame d.before d.after)
    (hb : ∀ d ∈ ds, ∀ rf rr, o.rates d.reaction = .ok (rf, rr) →
      Real.exp (-typesEnergy φ d.before / kT) * rf = Real.exp (-typesEnergy φ d.after / kT) * rr) (c c' : S → Str) :
    latticeWeight kT φ c * jumpRate place procs c c' = latticeWeight kT φ c' * jumpRate place procs c' c := by
  induction ds generalizing m0 m procs with
  | nil =>
    have h1 : [] = procs := Except.ok.inj (congrArg Prod.fst h)
    subst h1
    simp [jumpRate]
  | cons d ds ih =>
    obtain ⟨qs, qs', m1, h1, h2, rfl⟩ := processes_cons h
    obtain ⟨rf, rr, hrate, hq, -⟩ := single_spec h1
    have ih := ih _ _ _ h2 (fun x hx => hd x (by simp [hx])) (fun x hx => hb x (by simp [hx]))
    have happ : ∀ c c' : S → Str, jumpRate place (qs ++ qs') c c' = jumpRate place qs c c' + jumpRate place qs' c c' := by
      intro c c'; unfold jumpRate; rw [List.map_append, List.sum_append]
    rw [happ, happ, mul_add, mul_add, ih]
    congr 1
    obtain ⟨hnr, hw⟩ := hd d (by simp)
    have hbal := hb d (by simp) rf rr hrate
    -- one pair at one place
    have pair : ∀ (a : List S), a.Nodup → ∀ c c' : S → Str,
        latticeWeight kT φ c * (if Moves d.before d.after a c c' then rf else 0)
          = latticeWeight kT φ c' * (if Moves d.after d.before a c' c then rr else 0) := by
      intro a ha c c'
      by_cases hm : Moves d.before d.after a c c'
      · rw [if_pos hm, if_pos ((moves_iff hw).mp hm)]
        have hE := moves_energy φ ha hw hm
        have e1 : latticeWeight kT φ c = Real.exp (-typesEnergy φ d.before / kT) * Real.exp (-((∑ s, φ (c s)) - typesEnergy φ d.before) / kT) := by
          unfold latticeWeight; rw [← Real.exp_add]; congr 1; ring
        have e2 : latticeWeight kT φ c' = Real.exp (-typesEnergy φ d.after / kT) * Real.exp (-((∑ s, φ (c s)) - typesEnergy φ d.before) / kT) := by
          unfold latticeWeight; rw [← Real.exp_add]; congr 1
          rw [show (∑ s, φ (c' s)) = (∑ s, φ (c s)) + (typesEnergy φ d.after - typesEnergy φ d.before) from by rw [← hE]; ring]
          ring
        rw [e1, e2, mul_right_comm, hbal, mul_right_comm]
      · rw [if_neg hm, if_neg (fun h => hm ((moves_iff hw).mpr h)), mul_zero, mul_zero]
    have sums : ∀ (l : List (List S)), (∀ a ∈ l, a.Nodup) → ∀ c c' : S → Str,
        latticeWeight kT φ c * (l.map fun a => if Moves d.before d.after a c c' then rf else 0).sum
          = latticeWeight kT φ c' * (l.map fun a => if Moves d.after d.before a c' c then rr else 0).sum := by
      intro l hl c c'
      rw [mul_list_sum, mul_list_sum]
      congr 1
      exact List.map_congr_left fun a ha => pair a (hl a ha) c c'
    have hq' : qs = (d.basis.flatMap fun b => d.coords.map fun x => (b, x)).flatMap fun y =>
        [(⟨y.2, d.before, d.after, y.1, rf, d.fast, d.redist⟩ : KProc ℝ C), ⟨y.2, d.after, d.before, y.1, rr, d.fast, false⟩] := by
      rw [hq]
      simp only [List.flatMap_assoc, List.flatMap_map, processPair, hnr, Bool.false_eq_true, if_false]
    rw [hq']
    generalize (d.basis.flatMap fun b => d.coords.map fun x => (b, x)) = ys
    clear hq hq' happ ih h h1 h2
    induction ys with
    | nil => simp [jumpRate]
    | cons y ys ih2 =>
      have hcons : ∀ c c' : S → Str, jumpRate place ((y :: ys).flatMap fun y =>
          [(⟨y.2, d.before, d.after, y.1, rf, d.fast, d.redist⟩ : KProc ℝ C), ⟨y.2, d.after, d.before, y.1, rr, d.fast, false⟩]) c c'
          = ((place y.2 y.1).map fun a => if Moves d.before d.after a c c' then rf else 0).sum
            + ((place y.2 y.1).map fun a => if Moves d.after d.before a c c' then rr else 0).sum
            + jumpRate place (ys.flatMap fun y =>
          [(⟨y.2, d.before, d.after, y.1, rf, d.fast, d.redist⟩ : KProc ℝ C), ⟨y.2, d.after, d.before, y.1, rr, d.fast, false⟩]) c c' := by
        intro c c'
        unfold jumpRate
        simp only [List.flatMap_cons, List.map_append, List.sum_append, List.map_cons, List.map_nil, List.sum_cons, List.sum_nil, add_zero]
      rw [hcons, hcons, mul_add, mul_add, mul_add, mul_add, ih2, sums _ (hplace _ _) c c', ← sums _ (hplace _ _) c' c]
      ring

/-! ### C120 -/

/-- Specification: free energy of a state with its gases at their pressures and all sites as the process finds them. -/
noncomputable def stateFree (kT : ℝ) (G P : Str → ℝ) (fs : List Formula) : ℝ := specEnergy G fs + kT * Real.log (specPressure P fs)

/-- Specification: energies of the element types that fit a process definition. The types after less the types before
differ by the free energies of the end states of its reaction. -/
def TypesFit (kT : ℝ) (G P φ : Str → ℝ) (d : ProcDict C) : Prop :=
  ∀ states is fs, eqnFormulas d.reaction = .ok states → states.head? = some is → states.getLast? = some fs →
    typesEnergy φ d.after - typesEnergy φ d.before = stateFree kT G P fs - stateFree kT G P is

theorem specPressure_pos {P : Str → ℝ} {fs : List Formula} (h : ∀ g ∈ fs, g.type = .gas → 0 < P g.speciesSite) :
    0 < specPressure P fs := by
  unfold specPressure
  apply List.prod_pos
  intro x hx
  obtain ⟨g, hg, rfl⟩ := List.mem_map.mp hx
  rw [List.mem_filter] at hg
  exact pow_pos (h g hg.1 (by simpa using hg.2)) _

/-- **C120** The rates of one process definition, by transition state theory with absolute energies and pressures: forward and reverse rate are
in the ratio of the Boltzmann factors of the element types after and before. Missing: gases with coefficients (they give no rate,
`C21_coefficient_refuted`). -/
theorem C120_rates_partial (ro : RateOwner) (hT : 0 < ro.T) (E : Dict Str ℝ) (G : Str → ℝ) (hG : Extends G E) (r : Rel ℝ)
    (hr : relativeFromAbsolute (some E) ro.rxns = .ok r) (P : Str → ℝ) (hP : Extends P ro.pressures) (d : ProcDict C)
    (hg : ∀ states is fs, eqnFormulas d.reaction = .ok states → states.head? = some is → states.getLast? = some fs →
      ∀ g ∈ is ++ fs, g.type = .gas → g.text = g.speciesSite ∧ g.stoich = 1 ∧ 0 < P g.speciesSite)
    (φ : Str → ℝ) (hφ : TypesFit (kBeV * ro.T) G P φ d) (rf rr : ℝ)
    (hrate' : kmcRates ro .TST ⟨some r.gaf, some r.gar, some r.dg⟩ d.reaction = .ok (rf, rr)) :
    Real.exp (-typesEnergy φ d.before / (kBeV * ro.T)) * rf = Real.exp (-typesEnergy φ d.after / (kBeV * ro.T)) * rr := by
  have hkT : 0 < kBeV * ro.T := mul_pos kBeV_pos hT
  replace hrate' : ratesTST ro ⟨some r.gaf, some r.gar, some r.dg⟩ true d.reaction = .ok (rf, rr) := hrate'
  have hx : d.reaction ∈ ro.rxns := by
    by_contra hn
    have h2 : relOf ro.rxns ⟨some r.gaf, some r.gar, some r.dg⟩ d.reaction = .error .ValueError := by
      unfold relOf; rw [if_pos hn]
    unfold ratesTST at hrate'
    rw [h2] at hrate'
    exact nomatch hrate'
  obtain ⟨v, kf, kr, hv, hk, hK⟩ := C17_from_absolute_energies E ro r hT hr d.reaction hx
  obtain ⟨states, is, fs, h1, h2, h3, -, h5, -, -⟩ := C12_single_reaction E G hG _ _ hv
  have hg' := hg states is fs h1 h2 h3
  obtain ⟨e1, e2⟩ := C21_pressures_partial ro _ d.reaction kf kr rf rr P hP states is fs h1 h2 h3
    (fun g hgm ht => ⟨(hg' g hgm ht).1, (hg' g hgm ht).2.1⟩) hk hrate'
  have p1 : 0 < specPressure P is := specPressure_pos fun g hgm ht => (hg' g (by simp [hgm]) ht).2.2
  have p2 : 0 < specPressure P fs := specPressure_pos fun g hgm ht => (hg' g (by simp [hgm]) ht).2.2
  have hkr : kr ≠ 0 := by
    obtain ⟨w, -, -, h2⟩ := ratesTST_ok.mp hk
    dsimp only at h2
    rw [(kTST_ok hT.ne').mp h2]
    have := kBeV_pos
    have := heV_pos
    positivity
  have hkf : kf = Real.exp (-v.dg / (kBeV * ro.T)) * kr := by rw [← hK]; field_simp
  have hfit := hφ states is fs h1 h2 h3
  unfold stateFree at hfit
  have q1 : specPressure P is = Real.exp (Real.log (specPressure P is)) := (Real.exp_log p1).symm
  have q2 : specPressure P fs = Real.exp (Real.log (specPressure P fs)) := (Real.exp_log p2).symm
  rw [e1, e2, hkf, q1, q2, ← mul_assoc, ← mul_assoc, ← mul_assoc, ← Real.exp_add, ← Real.exp_add, ← Real.exp_add]
  congr 2
  rw [h5, show typesEnergy φ d.after = typesEnergy φ d.before + (specEnergy G fs + kBeV * ro.T * Real.log (specPressure P fs)
    - (specEnergy G is + kBeV * ro.T * Real.log (specPressure P is))) from by rw [← hfit]; ring]
  have hB := kBeV_pos.ne'
  have hT0 := hT.ne'
  field_simp
  ring

/-- **C120** Detailed balance on the lattice, by transition state theory with absolute energies: if the element types have
energies that fit all process definitions (the gases are then in equilibrium with each other through the surface), every
jump of the processes handed to the engine is balanced by its reverse jump at the Boltzmann weights, on every finite lattice. Missing: redistribution processes, which
have no reverse, wildcards on one side only, gases with coefficients (they give no rate, `C21_coefficient_refuted`). -/
theorem C120_balance_partial [Fintype S] (ro : RateOwner) (hT : 0 < ro.T) (E : Dict Str ℝ) (G : Str → ℝ) (hG : Extends G E) (r : Rel ℝ)
    (hr : relativeFromAbsolute (some E) ro.rxns = .ok r) (P : Str → ℝ) (hP : Extends P ro.pressures) (types : List Str)
    (ds : List (ProcDict C)) (procs : List (KProc ℝ C)) (m : List Str)
    (h : getProcesses (latticeOwner ro .TST ⟨some r.gaf, some r.gar, some r.dg⟩ types) ds [] = (.ok procs, m))
    (hd : ∀ d ∈ ds, d.redist = false ∧ WildSame d.before d.after)
    (hg : ∀ d ∈ ds, ∀ states is fs, eqnFormulas d.reaction = .ok states → states.head? = some is → states.getLast? = some fs →
      ∀ g ∈ is ++ fs, g.type = .gas → g.text = g.speciesSite ∧ g.stoich = 1 ∧ 0 < P g.speciesSite)
    (φ : Str → ℝ) (hφ : ∀ d ∈ ds, TypesFit (kBeV * ro.T) G P φ d)
    (place : C → Int → List (List S)) (hplace : ∀ x b, ∀ a ∈ place x b, a.Nodup) (c c' : S → Str) :
    latticeWeight (kBeV * ro.T) φ c * jumpRate place procs c c' = latticeWeight (kBeV * ro.T) φ c' * jumpRate place procs c' c := by
  exact lattice_balance _ _ φ place hplace ds [] m procs h hd (fun d hdm rf rr hrate =>
    C120_rates_partial ro hT E G hG r hr P hP d (hg d hdm) φ (hφ d hdm) rf rr hrate) c c'

/-- **C120** The Boltzmann weights are then stationary: on any finite set of configurations, what flows into a configuration flows out of it. Missing: as
above. -/
theorem C120_stationary_partial [Fintype S] (ro : RateOwner) (hT : 0 < ro.T) (E : Dict Str ℝ) (G : Str → ℝ) (hG : Extends G E) (r : Rel ℝ)
    (hr : relativeFromAbsolute (some E) ro.rxns = .ok r) (P : Str → ℝ) (hP : Extends P ro.pressures) (types : List Str)
    (ds : List (ProcDict C)) (procs : List (KProc ℝ C)) (m : List Str)
    (h : getProcesses (latticeOwner ro .TST ⟨some r.gaf, some r.gar, some r.dg⟩ types) ds [] = (.ok procs, m))
    (hd : ∀ d ∈ ds, d.redist = false ∧ WildSame d.before d.after)
    (hg : ∀ d ∈ ds, ∀ states is fs, eqnFormulas d.reaction = .ok states → states.head? = some is → states.getLast? = some fs →
      ∀ g ∈ is ++ fs, g.type = .gas → g.text = g.speciesSite ∧ g.stoich = 1 ∧ 0 < P g.speciesSite)
    (φ : Str → ℝ) (hφ : ∀ d ∈ ds, TypesFit (kBeV * ro.T) G P φ d)
    (place : C → Int → List (List S)) (hplace : ∀ x b, ∀ a ∈ place x b, a.Nodup) (Ω : Finset (S → Str)) (c : S → Str) :
    ∑ c' ∈ Ω, latticeWeight (kBeV * ro.T) φ c' * jumpRate place procs c' c
      = latticeWeight (kBeV * ro.T) φ c * ∑ c' ∈ Ω, jumpRate place procs c c' := by
  rw [Finset.mul_sum]
  exact Finset.sum_congr rfl fun c' _ =>
    C120_balance_partial ro hT E G hG r hr P hP types ds procs m h hd hg φ hφ place hplace c' c

/-! ### the isotherm -/

/-- Specification: share of a type among all types, each with its Boltzmann factor. -/
noncomputable def isotherm (kT : ℝ) (φ : Str → ℝ) (types : List Str) (e : Str) : ℝ :=
  Real.exp (-φ e / kT) / (types.map fun t => Real.exp (-φ t / kT)).sum

theorem latticeWeight_prod [Fintype S] (kT : ℝ) (φ : Str → ℝ) (c : S → Str) :
    latticeWeight kT φ c = ∏ s, Real.exp (-φ (c s) / kT) := by
  unfold latticeWeight
  rw [← Real.exp_sum]
  congr 1
  rw [← Finset.sum_neg_distrib]
  simp only [div_eq_mul_inv, Finset.sum_mul]

/-- Sum of the weights of the configurations with type `e` at the site `s`. -/
theorem latticeWeight_at {n : Nat} (kT : ℝ) (φ : Str → ℝ) (types : List Str) (hn : types.Nodup) (e : Str) (he : e ∈ types) (s : Fin n) :
    ∑ c : Fin n → {t // t ∈ types}, (latticeWeight kT φ fun s => (c s).1) * (if (c s).1 = e then 1 else 0)
      = isotherm kT φ types e * ∑ c : Fin n → {t // t ∈ types}, latticeWeight kT φ fun s => (c s).1 := by
  have hZ : ∀ f : Str → ℝ, ∑ t : {t // t ∈ types}, f t.1 = (types.map f).sum := by
    intro f
    rw [← List.sum_toFinset _ hn]
    rw [← Finset.sum_coe_sort types.toFinset f]
    refine Fintype.sum_equiv (Equiv.subtypeEquivRight fun t => by simp) _ _ ?_
    intro t
    rfl
  set Z := (types.map fun t => Real.exp (-φ t / kT)).sum with hZdef
  have hZ0 : Z ≠ 0 := by
    have : 0 < Z := by
      rw [hZdef]
      apply List.sum_pos
      · intro x hx
        obtain ⟨t, -, rfl⟩ := List.mem_map.mp hx
        exact Real.exp_pos _
      · intro h
        rw [List.map_eq_nil_iff] at h
        rw [h] at he
        exact nomatch he
    exact this.ne'
  have tot : ∑ c : Fin n → {t // t ∈ types}, (latticeWeight kT φ fun s => (c s).1) = Z ^ n := by
    have := Fintype.prod_sum (κ := fun _ : Fin n => {t // t ∈ types}) (fun _ t => Real.exp (-φ t.1 / kT))
    simp only [latticeWeight_prod]
    rw [← this, Finset.prod_congr rfl fun _ _ => hZ fun t => Real.exp (-φ t / kT)]
    simp
    rfl
  have one : ∑ c : Fin n → {t // t ∈ types}, (latticeWeight kT φ fun s => (c s).1) * (if (c s).1 = e then 1 else 0)
      = ∏ s', if s' = s then Real.exp (-φ e / kT) else Z := by
    have := Fintype.prod_sum (κ := fun _ : Fin n => {t // t ∈ types})
      (fun s' t => Real.exp (-φ t.1 / kT) * (if s' = s then (if t.1 = e then 1 else 0) else 1))
    simp only [latticeWeight_prod]
    rw [Finset.sum_congr rfl (g := fun c : Fin n → {t // t ∈ types} => ∏ s', (Real.exp (-φ (c s').1 / kT) * (if s' = s then (if (c s').1 = e then 1 else 0) else 1)))]
    · rw [← this]
      refine Finset.prod_congr rfl fun s' _ => ?_
      by_cases hs : s' = s
      · simp only [hs, if_true]
        rw [hZ fun t => Real.exp (-φ t / kT) * (if t = e then 1 else 0), ← List.sum_toFinset _ hn]
        simp [he]
      · simp only [hs, if_false, mul_one]
        exact hZ fun t => Real.exp (-φ t / kT)
    · intro c _
      rw [Finset.prod_mul_distrib]
      congr 1
      rw [Finset.prod_ite_eq' Finset.univ s]
      simp
  rw [one, tot]
  unfold isotherm
  rw [← hZdef, Finset.prod_congr rfl (g := fun s' => (if s' = s then Real.exp (-φ e / kT) / Z else 1) * Z)]
  · rw [Finset.prod_mul_distrib, Finset.prod_ite_eq' Finset.univ s]
    simp
  · intro s' _
    split
    · field_simp
    · rw [one_mul]

/-- **C120** Over the stationary weights the coverage that the analysis records is, in the mean, the share of the type among all types: the
isotherm that the mean field equations have too. For lattices with one site in the cell. -/
theorem C120_isotherm_partial {n : Nat} (hn : 0 < n) (kT : ℝ) (φ : Str → ℝ) (types : List Str) (ht : types.Nodup) (empty : Str)
    (he : empty ∈ types) : ∃ cov : (Fin n → {t // t ∈ types}) → List ℝ,
    (∀ c, recordCoverages types empty [(1 : ℝ)] (List.ofFn fun s => (c s).1) = .ok (cov c)) ∧
    ∀ (i : Nat) (e : Str), types[i]? = some e → e ≠ empty → ∃ x : (Fin n → {t // t ∈ types}) → ℝ, (∀ c, (cov c)[i]? = some (x c)) ∧
      ∑ c : Fin n → {t // t ∈ types}, (latticeWeight kT φ fun s => (c s).1) * x c
        = isotherm kT φ types e * ∑ c : Fin n → {t // t ∈ types}, latticeWeight kT φ fun s => (c s).1 := by
  have recs : ∀ c : Fin n → {t // t ∈ types}, _ := fun c => C52_coverages_partial types empty [(1 : ℝ)]
    ((List.ofFn fun s => (c s).1).map fun t => [t]) ht he (by simp) (by simp; omega) (by
      intro l hl
      obtain ⟨t, -, rfl⟩ := List.mem_map.mp hl
      rfl)
  have hflat : ∀ c : Fin n → {t // t ∈ types}, ((List.ofFn fun s => (c s).1).map fun t => [t]).flatten = List.ofFn fun s => (c s).1 := by
    intro c
    generalize (List.ofFn fun s => (c s).1) = l
    induction l with
    | nil => rfl
    | cons x l ih => simp [ih]
  choose cov h1 h2 h3 h4 h5 using recs
  refine ⟨cov, fun c => by rw [← hflat c]; exact h1 c, ?_⟩
  intro i e hi hne
  have hw : ∀ c : Fin n → {t // t ∈ types}, cellWeight [(1 : ℝ)] ((List.ofFn fun s => (c s).1).map fun t => [t]) e
      = ∑ s, if (c s).1 = e then 1 else 0 := by
    intro c
    unfold cellWeight
    simp [List.sum_ofFn, Function.comp_def]
  refine ⟨fun c => (∑ s, if (c s).1 = e then 1 else 0) / (n : ℝ), fun c => ?_, ?_⟩
  · rw [h4 c i e hi hne, hw]
    simp
  · have hem := List.mem_of_getElem? hi
    have hn0 : (n : ℝ) ≠ 0 := by exact_mod_cast hn.ne'
    have : ∀ c : Fin n → {t // t ∈ types}, (latticeWeight kT φ fun s => (c s).1) * ((∑ s, if (c s).1 = e then 1 else 0) / (n : ℝ))
        = (∑ s, (latticeWeight kT φ fun s => (c s).1) * if (c s).1 = e then 1 else 0) * (n : ℝ)⁻¹ := by
      intro c
      rw [← Finset.mul_sum, div_eq_mul_inv, mul_assoc]
    simp only [this]
    rw [← Finset.sum_mul, Finset.sum_comm]
    simp only [latticeWeight_at kT φ types ht e hem]
    rw [Finset.sum_const, Finset.card_univ, Fintype.card_fin, nsmul_eq_mul]
    field_simp

/-- **C120** At the coverages of the isotherm each process is balanced in the mean field sense too: forward rate times the coverages of the
types before is reverse rate times the coverages of the types after. Missing: as above. -/
theorem C120_mean_field_partial (ro : RateOwner) (hT : 0 < ro.T) (E : Dict Str ℝ) (G : Str → ℝ) (hG : Extends G E) (r : Rel ℝ)
    (hr : relativeFromAbsolute (some E) ro.rxns = .ok r) (P : Str → ℝ) (hP : Extends P ro.pressures) (d : ProcDict C)
    (hl : d.before.length = d.after.length)
    (hg : ∀ states is fs, eqnFormulas d.reaction = .ok states → states.head? = some is → states.getLast? = some fs →
      ∀ g ∈ is ++ fs, g.type = .gas → g.text = g.speciesSite ∧ g.stoich = 1 ∧ 0 < P g.speciesSite)
    (φ : Str → ℝ) (hφ : TypesFit (kBeV * ro.T) G P φ d) (rf rr : ℝ)
    (hrate : kmcRates ro .TST ⟨some r.gaf, some r.gar, some r.dg⟩ d.reaction = .ok (rf, rr)) (types : List Str) :
    rf * (d.before.map (isotherm (kBeV * ro.T) φ types)).prod = rr * (d.after.map (isotherm (kBeV * ro.T) φ types)).prod := by
  have h := C120_rates_partial ro hT E G hG r hr P hP d hg φ hφ rf rr hrate
  have key : ∀ l : List Str, (l.map (isotherm (kBeV * ro.T) φ types)).prod = Real.exp (-typesEnergy φ l / (kBeV * ro.T))
      * ((types.map fun t => Real.exp (-φ t / (kBeV * ro.T))).sum⁻¹) ^ l.length := by
    intro l
    induction l with
    | nil => simp [typesEnergy]
    | cons x l ih =>
      rw [List.map_cons, List.prod_cons, ih, List.length_cons, pow_succ]
      unfold isotherm typesEnergy
      rw [List.map_cons, List.sum_cons, neg_add, add_div, Real.exp_add]
      ring
  rw [key, key, hl, ← mul_assoc, ← mul_assoc, mul_comm rf, h, mul_comm rr]

/-! ### carbon monoxide on three sites -/

def exLatRxns : List Str := [str! "CO_g + *_s -> CO_s", str! "CO_s + *_s -> *_s + CO_s"]
noncomputable def exLatOwner : RateOwner := ⟨exLatRxns, 450, [(str! "CO_g", 2)], 0, 0, false⟩
def exLatDicts : List (ProcDict Nat) :=
  [⟨str! "CO_g + *_s -> CO_s", [0], [str! "V"], [str! "C"], false, [0], false, false⟩,
   ⟨str! "CO_s + *_s -> *_s + CO_s", [1], [str! "C", str! "V"], [str! "V", str! "C"], false, [0], false, false⟩]
/-- Shape 0 is one site, shape 1 a site and its right neighbour on a ring. -/
def exLatPlace : Nat → Int → List (List (Fin 3))
  | 0, _ => [[0], [1], [2]]
  | _, _ => [[0, 1], [1, 2], [2, 0]]
noncomputable def exLatPhi (t : Str) : ℝ := if t = str! "C" then -2 - kBeV * 450 * Real.log 2 else 0
noncomputable def exLatE : Dict Str ℝ := [(str! "CO_g", 0), (str! "*_s", 0), (str! "CO_s", -2)]

theorem exLat_states : eqnFormulas (str! "CO_g + *_s -> CO_s") = .ok [[fCO, ⟨str! "*_s", 1, str! "*", 1, str! "s", str! "*_s"⟩],
     [⟨str! "CO_s", 1, str! "CO", 1, str! "s", str! "CO_s"⟩]] ∧
    eqnFormulas (str! "CO_s + *_s -> *_s + CO_s") = .ok [[⟨str! "CO_s", 1, str! "CO", 1, str! "s", str! "CO_s"⟩, ⟨str! "*_s", 1, str! "*", 1, str! "s", str! "*_s"⟩],
      [⟨str! "*_s", 1, str! "*", 1, str! "s", str! "*_s"⟩, ⟨str! "CO_s", 1, str! "CO", 1, str! "s", str! "CO_s"⟩]] := by
  constructor <;> decide

theorem exLat_gases (d : ProcDict Nat) (hd : d ∈ exLatDicts) (states : List (List Formula)) (is fs : List Formula)
    (h1 : eqnFormulas d.reaction = .ok states) (h2 : states.head? = some is) (h3 : states.getLast? = some fs) :
    ∀ g ∈ is ++ fs, g.type = .gas → g.text = g.speciesSite ∧ g.stoich = 1 ∧ g = fCO := by
  simp only [exLatDicts, List.mem_cons, List.not_mem_nil, or_false] at hd
  rcases hd with rfl | rfl
  · rw [show _ = _ from exLat_states.1] at h1
    cases h1; cases h2; cases h3
    decide
  · rw [show _ = _ from exLat_states.2] at h1
    cases h1; cases h2; cases h3
    decide

theorem exLat_ok : ∃ r procs m, relativeFromAbsolute (some exLatE) exLatOwner.rxns = .ok r ∧
    getProcesses (latticeOwner exLatOwner .TST ⟨some r.gaf, some r.gar, some r.dg⟩ [str! "V", str! "C"]) exLatDicts [] = (.ok procs, m) := by
  have hnet : ∃ net, parseNetwork exLatRxns = .ok net := by
    cases h : parseNetwork exLatRxns with
    | ok n => exact ⟨n, rfl⟩
    | error e =>
      have : (parseNetwork exLatRxns).isOk = true := by decide
      rw [h] at this
      exact nomatch this
  obtain ⟨net, hnet⟩ := hnet
  obtain ⟨r, hr⟩ := (C12_complete_tables exLatE exLatRxns net hnet).1 (by
    have hm := (parseNetwork_ok hnet).1
    have h2 : exLatRxns.mapM parseRxn = .ok [[[fCO, ⟨str! "*_s", 1, str! "*", 1, str! "s", str! "*_s"⟩],
     [⟨str! "CO_s", 1, str! "CO", 1, str! "s", str! "CO_s"⟩]],
      [[⟨str! "CO_s", 1, str! "CO", 1, str! "s", str! "CO_s"⟩, ⟨str! "*_s", 1, str! "*", 1, str! "s", str! "*_s"⟩],
      [⟨str! "*_s", 1, str! "*", 1, str! "s", str! "*_s"⟩, ⟨str! "CO_s", 1, str! "CO", 1, str! "s", str! "CO_s"⟩]]] := by decide
    rw [h2] at hm
    rw [← Except.ok.inj hm, show keys exLatE = [str! "CO_g", str! "*_s", str! "CO_s"] from rfl]
    decide)
  refine ⟨r, ?_⟩
  have hall := (C51_accepted (latticeOwner exLatOwner .TST ⟨some r.gaf, some r.gar, some r.dg⟩ [str! "V", str! "C"]) exLatDicts []).mpr (by
    intro d hd
    have hm : d.reaction ∈ exLatRxns ∧ d.mixed = false ∧ (∀ e, e ∈ d.before ∨ e ∈ d.after → e = ['*'] ∨ e ∈ [str! "V", str! "C"]) ∧
        ∃ states is fs, eqnFormulas d.reaction = .ok states ∧ states.head? = some is ∧ states.getLast? = some fs := by
      simp only [exLatDicts, List.mem_cons, List.not_mem_nil, or_false] at hd
      rcases hd with rfl | rfl
      · exact ⟨by decide, rfl, by simp, _, _, _, exLat_states.1, rfl, rfl⟩
      · exact ⟨by decide, rfl, by simp; tauto, _, _, _, exLat_states.2, rfl, rfl⟩
    obtain ⟨m1, m2, m3, states, is, fs, s1, s2, s3⟩ := hm
    refine ⟨m1, m2, m3, ?_⟩
    obtain ⟨v, kf, kr, -, hk, -⟩ := C17_from_absolute_energies exLatE exLatOwner r (by norm_num [exLatOwner]) hr d.reaction m1
    have := (C21_written exLatOwner _ d.reaction kf kr states is fs s1 s2 s3 hk).1 (fun _ => 2) (by
      intro g hg ht
      rw [(exLat_gases d hd states is fs s1 s2 s3 g hg ht).2.2]
      rfl)
    show (ratesTST exLatOwner ⟨some r.gaf, some r.gar, some r.dg⟩ true d.reaction).isOk = true
    rw [this]
    rfl)
  cases h : getProcesses (latticeOwner exLatOwner .TST ⟨some r.gaf, some r.gar, some r.dg⟩ [str! "V", str! "C"]) exLatDicts [] with
  | mk a m =>
    rw [h] at hall
    cases a with
    | error e => exact nomatch hall
    | ok procs => exact ⟨procs, m, hr, rfl⟩

/-- Adsorption and hops on a ring of three sites: the weights of all configurations balance all jumps. -/
example : ∃ r procs m, relativeFromAbsolute (some exLatE) exLatOwner.rxns = .ok r ∧
    getProcesses (latticeOwner exLatOwner .TST ⟨some r.gaf, some r.gar, some r.dg⟩ [str! "V", str! "C"]) exLatDicts [] = (.ok procs, m) ∧
    ∀ c c', latticeWeight (kBeV * 450) exLatPhi c * jumpRate exLatPlace procs c c' = latticeWeight (kBeV * 450) exLatPhi c' * jumpRate exLatPlace procs c' c := by
  obtain ⟨r, procs, m, hr, h⟩ := exLat_ok
  refine ⟨r, procs, m, hr, h, ?_⟩
  let G : Str → ℝ := fun x => if x = str! "CO_s" then -2 else 0
  have hG : Extends G exLatE := by
    intro k v hk
    simp only [exLatE, get?] at hk
    split at hk
    · rename_i h; cases hk; rw [← h]; exact if_neg (by decide)
    · split at hk
      · rename_i h; cases hk; rw [← h]; exact if_neg (by decide)
      · split at hk
        · rename_i h; cases hk; rw [← h]; exact if_pos rfl
        · exact nomatch hk
  intro c c'
  refine C120_balance_partial exLatOwner (by norm_num [exLatOwner]) exLatE G hG r hr (fun _ => 2) ?_ _ exLatDicts procs m h ?_ ?_ exLatPhi ?_ exLatPlace ?_ c c'
  · intro k v hk
    simp only [exLatOwner, get?] at hk
    split at hk
    · cases hk; rfl
    · exact nomatch hk
  · intro d hd
    simp only [exLatDicts, List.mem_cons, List.not_mem_nil, or_false] at hd
    rcases hd with rfl | rfl
    · refine ⟨rfl, rfl, ?_⟩
      rintro (_ | j) b e h1 h2
      · cases h1; cases h2; decide
      · exact nomatch h1
    · refine ⟨rfl, rfl, ?_⟩
      rintro (_ | _ | j) b e h1 h2
      · cases h1; cases h2; decide
      · cases h1; cases h2; decide
      · exact nomatch h1
  · intro d hd states is fs s1 s2 s3 g hg ht
    obtain ⟨h1, h2, -⟩ := exLat_gases d hd states is fs s1 s2 s3 g hg ht
    exact ⟨h1, h2, by norm_num⟩
  · intro d hd states is fs s1 s2 s3
    simp only [exLatDicts, List.mem_cons, List.not_mem_nil, or_false] at hd
    rcases hd with rfl | rfl
    · rw [show _ = _ from exLat_states.1] at s1
      cases s1; cases s2; cases s3
      simp [typesEnergy, stateFree, specEnergy, specPressure, exLatPhi, G, fCO, Formula.type, exLatOwner]
    · rw [show _ = _ from exLat_states.2] at s1
      cases s1; cases s2; cases s3
      simp [typesEnergy, stateFree, specEnergy, specPressure, exLatPhi, G, Formula.type]
  · intro x b a ha
    unfold exLatPlace at ha
    split at ha <;> (revert a; decide)

/-- The recorded coverage of carbon monoxide on three sites, in the mean. -/
example : ∃ cov : (Fin 3 → {t // t ∈ [str! "V", str! "C"]}) → List ℝ, ∃ x : (Fin 3 → {t // t ∈ [str! "V", str! "C"]}) → ℝ,
    (∀ c, recordCoverages [str! "V", str! "C"] (str! "V") [(1 : ℝ)] (List.ofFn fun s => (c s).1) = .ok (cov c) ∧ (cov c)[1]? = some (x c)) ∧
    ∑ c : Fin 3 → {t // t ∈ [str! "V", str! "C"]}, (latticeWeight (kBeV * 450) exLatPhi fun s => (c s).1) * x c
      = isotherm (kBeV * 450) exLatPhi [str! "V", str! "C"] (str! "C") * ∑ c : Fin 3 → {t // t ∈ [str! "V", str! "C"]}, latticeWeight (kBeV * 450) exLatPhi fun s => (c s).1 := by
  obtain ⟨cov, h1, h2⟩ := C120_isotherm_partial (n := 3) (by norm_num) (kBeV * 450) exLatPhi [str! "V", str! "C"] (by decide) (str! "V") (by decide)
  obtain ⟨x, h3, h4⟩ := h2 1 (str! "C") rfl (by decide)
  exact ⟨cov, x, fun c => ⟨h1 c, h3 c⟩, h4⟩

/-- The isotherm of Langmuir: `K p / (1 + K p)`. -/
example : isotherm (kBeV * 450) exLatPhi [str! "V", str! "C"] (str! "C") = 2 * Real.exp (2 / (kBeV * 450)) / (1 + 2 * Real.exp (2 / (kBeV * 450))) := by
  have hB := kBeV_pos
  have h1 : Real.exp (-exLatPhi (str! "C") / (kBeV * 450)) = 2 * Real.exp (2 / (kBeV * 450)) := by
    rw [show -exLatPhi (str! "C") / (kBeV * 450) = Real.log 2 + 2 / (kBeV * 450) from by
      unfold exLatPhi; rw [if_pos rfl]; field_simp; ring, Real.exp_add, Real.exp_log (by norm_num)]
  have h2 : Real.exp (-exLatPhi (str! "V") / (kBeV * 450)) = 1 := by
    unfold exLatPhi; rw [if_neg (by decide)]; simp
  unfold isotherm
  simp only [List.map_cons, List.map_nil, List.sum_cons, List.sum_nil, add_zero]
  rw [h1, h2]

/-- **C120** By collision theory: the rates are in the ratio of the Boltzmann factors of the types if these differ by the reaction energy with the
entropy term of the first gas at its pressure, as long as the reverse rate does not meet the limit `kB T / h`. Missing: reactions at the limit
(`C120_limit_refuted`). -/
theorem C120_collision_partial (ro : RateOwner) (hT : 0 < ro.T) (rel : RelDict ℝ) (d : ProcDict C) (v : Rel1 ℝ)
    (hv : relOf ro.rxns rel d.reaction = .ok v) (hc : v.gaf - v.gar = v.dg) (φ : Str → ℝ) (rf rr : ℝ)
    (states : List (List Formula)) (is fs : List Formula)
    (hs : eqnFormulas d.reaction = .ok states) (his : states.head? = some is) (hfs : states.getLast? = some fs)
    (hads : ∀ f p c, is.find? (·.type = .gas) = some f → get? ro.pressures f.text = some p →
      entropyCorrection ro.pressures ro.T (some (P0 * p)) f.text = .ok c →
      typesEnergy φ d.after - typesEnergy φ d.before = v.dg - f.stoich * c ∧
      rf * Real.exp ((v.dg - f.stoich * c) / (kBeV * ro.T)) ≤ kBeV * ro.T / heV)
    (hdes : ∀ f p c, is.find? (·.type = .gas) = none → fs.find? (·.type = .gas) = some f → get? ro.pressures f.text = some p →
      entropyCorrection ro.pressures ro.T (some (P0 * p)) f.text = .ok c →
      typesEnergy φ d.after - typesEnergy φ d.before = v.dg + f.stoich * c)
    (hsurf : is.find? (·.type = .gas) = none → fs.find? (·.type = .gas) = none →
      typesEnergy φ d.after - typesEnergy φ d.before = v.dg)
    (hrate : kmcRates ro .CT rel d.reaction = .ok (rf, rr)) :
    Real.exp (-typesEnergy φ d.before / (kBeV * ro.T)) * rf = Real.exp (-typesEnergy φ d.after / (kBeV * ro.T)) * rr := by
  replace hrate : ratesCT ro rel true d.reaction = .ok (rf, rr) := hrate
  have hB := kBeV_pos
  have hH := heV_pos
  have hpr : ∀ {t : Str} {q : ℝ}, pressureCT ro true t = .ok q → ∃ p, get? ro.pressures t = some p ∧ q = P0 * p := by
    intro t q h
    unfold pressureCT dictGet at h
    rw [if_pos rfl] at h
    cases hg : get? ro.pressures t with
    | none => rw [hg] at h; exact nomatch h
    | some p => rw [hg] at h; cases h; exact ⟨p, rfl, rfl⟩
  -- enough: the ratio is that of the change
  have fin : ∀ D : ℝ, typesEnergy φ d.after - typesEnergy φ d.before = D → rr = rf * Real.exp (D / (kBeV * ro.T)) →
      Real.exp (-typesEnergy φ d.before / (kBeV * ro.T)) * rf = Real.exp (-typesEnergy φ d.after / (kBeV * ro.T)) * rr := by
    intro D hD hr
    rw [hr, show typesEnergy φ d.after = typesEnergy φ d.before + D from by rw [← hD]; ring, mul_left_comm, mul_comm, ← Real.exp_add]
    congr 2
    ring
  cases hi : is.find? (·.type = .gas) with
  | some f =>
    obtain ⟨w, m, q, g, corr, hw, -, hq, hk, hb, hcorr, hrr⟩ := ratesCT_adsorption hs his hi hrate
    rw [hv] at hw; cases hw
    obtain ⟨p, hp, rfl⟩ := hpr hq
    obtain ⟨h1, h2⟩ := hads f p corr hi hp hcorr
    refine fin _ h1 ?_
    obtain ⟨hk0, hg⟩ := barrierFromCT_ok hT hb
    set D := v.dg - (f.stoich : ℝ) * corr with hD
    have hexp : Real.exp (-(g - D) / (kBeV * ro.T)) = rf * heV / (kBeV * ro.T) * Real.exp (D / (kBeV * ro.T)) := by
      rw [show -(g - D) / (kBeV * ro.T) = Real.log (rf * heV / (kBeV * ro.T)) + D / (kBeV * ro.T) from by rw [hg]; field_simp; ring,
        Real.exp_add, Real.exp_log (by positivity)]
    have hge : ¬ g - D < 0 := by
      intro hlt
      have : 1 < Real.exp (-(g - D) / (kBeV * ro.T)) := Real.one_lt_exp_iff.mpr (by
        apply div_pos _ (by positivity); linarith)
      rw [hexp] at this
      have h3 : rf * heV / (kBeV * ro.T) * Real.exp (D / (kBeV * ro.T)) ≤ 1 := by
        rw [show rf * heV / (kBeV * ro.T) * Real.exp (D / (kBeV * ro.T)) = rf * Real.exp (D / (kBeV * ro.T)) * (heV / (kBeV * ro.T)) from by ring]
        calc _ ≤ kBeV * ro.T / heV * (heV / (kBeV * ro.T)) := mul_le_mul_of_nonneg_right h2 (by positivity)
          _ = 1 := by field_simp
      linarith
    rw [if_neg hge, kTST_ok hT.ne', hexp] at hrr
    rw [hrr]
    field_simp
  | none =>
    cases hf : fs.find? (·.type = .gas) with
    | some f =>
      obtain ⟨w, q, corr, hw, hq, hcorr, hrr, hrf⟩ := ratesCT_desorption hs his hfs hi hf hrate
      rw [hv] at hw; cases hw
      obtain ⟨p, hp, rfl⟩ := hpr hq
      refine fin _ (hdes f p corr hi hf hp hcorr) ?_
      rw [kTST_ok hT.ne'] at hrr hrf
      rw [hrr, hrf, mul_assoc, ← Real.exp_add]
      congr 2
      rw [← hc]
      ring
    | none =>
      refine fin _ (hsurf hi hf) ?_
      unfold ratesCT at hrate
      rw [hv, hs] at hrate
      simp only [bind, Except.bind, his, hfs, hi, hf] at hrate
      split at hrate
      · cases hrate
      split at hrate
      · cases hrate
      rw [(kTST_ok hT.ne').mpr rfl, (kTST_ok hT.ne').mpr rfl] at hrate
      cases hrate
      rw [mul_assoc, ← Real.exp_add]
      congr 2
      rw [← hc]
      ring

/-- Collision theory gives rates for the adsorption of carbon monoxide at two atmospheres. -/
theorem exLat_collision (area : ℝ) (ha : 0 < area) : ∃ m c rf rr, molecularMass (str! "CO") = .ok m ∧
    kCT 0 area (1 / 2) (amu * (m : ℝ)) 450 (P0 * 2) 1 = .ok rf ∧
    entropyCorrection [(str! "CO_g", 2)] 450 (some (P0 * 2)) (str! "CO_g") = .ok c ∧
    kmcRates ⟨[str! "CO_g + *_s -> CO_s"], 450, [(str! "CO_g", 2)], area, 1 / 2, true⟩ .CT ⟨some [0], some [2], some [-2]⟩
      (str! "CO_g + *_s -> CO_s") = .ok (rf, rr) := by
  have hm : (0 : ℝ) < amu * ((280101 / 10000 : ℚ) : ℝ) := by
    have := amu_pos
    have h2 : (0 : ℝ) < ((280101 / 10000 : ℚ) : ℝ) := by norm_num
    positivity
  have hfind : List.find? (fun x : Formula => decide (x.type = .gas))
      [fCO, ⟨str! "*_s", 1, str! "*", 1, str! "s", str! "*_s"⟩] = some fCO := by decide
  have hrel : relOf [str! "CO_g + *_s -> CO_s"] ⟨some [0], some [2], some [-2]⟩ (str! "CO_g + *_s -> CO_s") = .ok (⟨0, 2, -2⟩ : Rel1 ℝ) :=
    relOf_ok.mpr ⟨by simp, _, _, _, rfl, rfl, rfl, by simp⟩
  have pp : (0 : ℝ) < P0 * 2 := mul_pos P0_pos (by norm_num)
  obtain ⟨k, hk, kp, -⟩ := C20_bounded 0 area (1 / 2) (amu * ((280101 / 10000 : ℚ) : ℝ)) 450 (P0 * 2) 1
    ha (by norm_num) (by norm_num) hm (by norm_num) pp (by norm_num) (by norm_num)
  obtain ⟨g, hg, -⟩ := C19_rate_of_barrier k 450 kp (by norm_num)
  obtain ⟨c, hc⟩ := C67_defined_partial db_CO [(str! "CO_g", (2 : ℝ))] 450 (P0 * 2) (by norm_num) pp (by
    intro _ t ht; simp only [List.mem_singleton] at ht; subst ht; norm_num)
  refine ⟨280101 / 10000, c, k, ?_⟩
  unfold kmcRates ratesCT
  rw [exLat_states.1, hrel]
  simp only [bind, Except.bind, List.head?_cons, List.getLast?_cons_cons, List.getLast?_singleton]
  rw [hfind, if_neg (by simpa using ha), if_neg (by simp)]
  simp only [show molecularMass fCO.species = _ from db_CO.mass,
    show pressureCT ⟨[str! "CO_g + *_s -> CO_s"], 450, [(str! "CO_g", 2)], area, 1 / 2, true⟩ true fCO.text = .ok (P0 * 2) from rfl,
    hk, hg, show entropyCorrection [(str! "CO_g", 2)] 450 (some (P0 * 2)) fCO.text = .ok c from hc]
  rw [(kTST_ok (by norm_num)).mpr rfl]
  exact ⟨_, db_CO.mass, trivial, hc, rfl⟩

theorem kCT_area {Ea act m T p f k : ℝ} (c : ℝ) (h : kCT Ea 1 act m T p f = .ok k) : kCT Ea c act m T p f = .ok (c * k) := by
  unfold kCT at h ⊢
  split at h
  · cases h
  split at h
  · cases h
  split at h
  · cases h
  dsimp only at h ⊢
  split at h
  · cases h
  split at h
  · cases h
  cases h
  rename_i h1 h2 h3 h4 h5
  rw [if_neg h1, if_neg h2, if_neg h3, if_neg h4, if_neg h5]
  congr 1
  ring

/-- **C120** At the limit of the reverse rate the balance is lost: for some area of the cell the adsorption of carbon monoxide and its reverse do
not have the ratio of the Boltzmann factors, whatever energies of the two types fit the reaction. -/
theorem C120_limit_refuted : ∃ area rf rr c : ℝ, 0 < area ∧
    kmcRates ⟨[str! "CO_g + *_s -> CO_s"], 450, [(str! "CO_g", 2)], area, 1 / 2, true⟩ .CT ⟨some [0], some [2], some [-2]⟩
      (str! "CO_g + *_s -> CO_s") = .ok (rf, rr) ∧
    entropyCorrection [(str! "CO_g", 2)] 450 (some (P0 * 2)) (str! "CO_g") = .ok c ∧
    ∀ φ : Str → ℝ, φ (str! "C") - φ (str! "V") = -2 - c →
      Real.exp (-typesEnergy φ [str! "V"] / (kBeV * 450)) * rf ≠ Real.exp (-typesEnergy φ [str! "C"] / (kBeV * 450)) * rr := by
  have hB := kBeV_pos
  have hH := heV_pos
  obtain ⟨m, c, k, r0, hm, hk, hc, h0⟩ := exLat_collision 1 one_pos
  have kp : 0 < k := by
    obtain ⟨v, m', q, g, c', -, -, -, hk', hb, -⟩ := ratesCT_adsorption exLat_states.1 rfl rfl h0
    exact (barrierFromCT_ok (by norm_num) hb).1
  let D : ℝ := -2 - c
  let area : ℝ := 2 * (kBeV * 450 / heV) * Real.exp (-D / (kBeV * 450)) / k
  have ha : 0 < area := by have := Real.exp_pos (-D / (kBeV * 450)); positivity
  obtain ⟨m1, c1, rf, rr, hm1, hk1, hc1, h1⟩ := exLat_collision area ha
  rw [hm] at hm1; cases hm1
  rw [hc] at hc1; cases hc1
  rw [kCT_area area hk] at hk1
  have hrf : rf = area * k := (Except.ok.inj hk1).symm
  have hrf' : rf = 2 * (kBeV * 450 / heV) * Real.exp (-D / (kBeV * 450)) := by rw [hrf]; simp only [area]; field_simp
  refine ⟨area, rf, rr, c, ha, h1, hc, ?_⟩
  intro φ hφ heq
  have hle : rr ≤ kBeV * 450 / heV := by
    obtain ⟨v, m', q, g, c', -, -, -, -, -, -, hr⟩ := ratesCT_adsorption exLat_states.1 rfl rfl h1
    rw [(kTST_ok (by norm_num)).mp hr]
    refine mul_le_of_le_one_right (by positivity) (Real.exp_le_one_iff.mpr ?_)
    rw [neg_div, neg_nonpos]
    apply div_nonneg _ (by positivity)
    split
    · exact le_refl _
    · rename_i h; exact not_lt.mp h
  have e1 : typesEnergy φ [str! "C"] = typesEnergy φ [str! "V"] + D := by
    simp only [typesEnergy, List.map_cons, List.map_nil, List.sum_cons, List.sum_nil, add_zero, D]
    rw [← hφ]; ring
  rw [e1, hrf', show -(typesEnergy φ [str! "V"] + D) / (kBeV * 450) = -typesEnergy φ [str! "V"] / (kBeV * 450) + -D / (kBeV * 450) from by ring,
    Real.exp_add] at heq
  have hp1 := Real.exp_pos (-typesEnergy φ [str! "V"] / (kBeV * 450))
  have hp2 := Real.exp_pos (-D / (kBeV * 450))
  have h3 : Real.exp (-typesEnergy φ [str! "V"] / (kBeV * 450)) * Real.exp (-D / (kBeV * 450)) * (2 * (kBeV * 450 / heV) - rr) = 0 := by
    linear_combination heq
  have h4 : 0 < 2 * (kBeV * 450 / heV) - rr := by
    have : 0 < kBeV * 450 / heV := by positivity
    linarith
  exact absurd h3 (mul_pos (mul_pos hp1 hp2) h4).ne'

/-- **C120** A redistribution process has no reverse among the processes, so its jumps are not balanced: adsorption marked in this way on one
site. -/
theorem C120_redist_refuted (rf rr : ℝ) (hrf : 0 < rf) (kT : ℝ) (φ : Str → ℝ) : ∃ procs m,
    getProcesses (C := Nat) ⟨[str! "CO_g + *_s -> CO_s"], [str! "V", str! "C"], fun _ => .ok (rf, rr)⟩
      [⟨str! "CO_g + *_s -> CO_s", [0], [str! "V"], [str! "C"], false, [0], true, true⟩] [] = (.ok procs, m) ∧
    ∃ c c' : Fin 1 → Str, latticeWeight kT φ c * jumpRate (fun _ _ => [[0]]) procs c c'
      ≠ latticeWeight kT φ c' * jumpRate (fun _ _ => [[0]]) procs c' c := by
  refine ⟨[⟨0, [str! "V"], [str! "C"], 0, rf, true, true⟩], _, rfl, fun _ => str! "V", fun _ => str! "C", ?_⟩
  have h1 : Moves (S := Fin 1) [str! "V"] [str! "C"] [0] (fun _ => str! "V") (fun _ => str! "C") := by
    refine ⟨rfl, rfl, ?_, ?_⟩
    · rintro (_ | j) b e s h1 h2 h3
      · cases h1; cases h2; exact ⟨Or.inr rfl, by decide⟩
      · exact nomatch h1
    · intro s hs
      exact absurd (by simp [Fin.fin_one_eq_zero s]) hs
  have h2 : ¬ Moves (S := Fin 1) [str! "V"] [str! "C"] [0] (fun _ => str! "C") (fun _ => str! "V") := by
    intro h
    rcases (h.at_ 0 _ _ 0 rfl rfl rfl).1 with h | h
    · exact absurd h (by decide)
    · exact absurd h (by decide)
  unfold jumpRate
  simp only [List.map_cons, List.map_nil, List.sum_cons, List.sum_nil, add_zero]
  rw [if_pos h1, if_neg h2, mul_zero]
  exact (mul_pos (Real.exp_pos _) hrf).ne'

/-- A cell small enough: the rates of the adsorption of carbon monoxide by collision theory are balanced. -/
example : ∃ area rf rr c : ℝ, 0 < area ∧
    kmcRates ⟨[str! "CO_g + *_s -> CO_s"], 450, [(str! "CO_g", 2)], area, 1 / 2, true⟩ .CT ⟨some [0], some [2], some [-2]⟩
      (str! "CO_g + *_s -> CO_s") = .ok (rf, rr) ∧
    entropyCorrection [(str! "CO_g", 2)] 450 (some (P0 * 2)) (str! "CO_g") = .ok c ∧
    ∀ φ : Str → ℝ, φ (str! "C") - φ (str! "V") = -2 - c →
      Real.exp (-typesEnergy φ [str! "V"] / (kBeV * 450)) * rf = Real.exp (-typesEnergy φ [str! "C"] / (kBeV * 450)) * rr := by
  have hB := kBeV_pos
  have hH := heV_pos
  obtain ⟨m, c, k, r0, hm, hk, hc, h0⟩ := exLat_collision 1 one_pos
  have kp : 0 < k := by
    obtain ⟨v, m', q, g, c', -, -, -, hk', hb, -⟩ := ratesCT_adsorption exLat_states.1 rfl rfl h0
    exact (barrierFromCT_ok (by norm_num) hb).1
  let D : ℝ := -2 - c
  let area : ℝ := kBeV * 450 / heV * Real.exp (-D / (kBeV * 450)) / k
  have ha : 0 < area := by have := Real.exp_pos (-D / (kBeV * 450)); positivity
  obtain ⟨m1, c1, rf, rr, hm1, hk1, hc1, h1⟩ := exLat_collision area ha
  rw [hm] at hm1; cases hm1
  rw [hc] at hc1; cases hc1
  rw [kCT_area area hk] at hk1
  have hrf : rf = kBeV * 450 / heV * Real.exp (-D / (kBeV * 450)) := by
    rw [show rf = area * k from (Except.ok.inj hk1).symm]; simp only [area]; field_simp
  refine ⟨area, rf, rr, c, ha, h1, hc, ?_⟩
  intro φ hφ
  refine C120_collision_partial (C := Nat) ⟨[str! "CO_g + *_s -> CO_s"], 450, [(str! "CO_g", 2)], area, 1 / 2, true⟩ (by norm_num) _
    ⟨str! "CO_g + *_s -> CO_s", [0], [str! "V"], [str! "C"], false, [0], false, false⟩ ⟨0, 2, -2⟩
    (relOf_ok.mpr ⟨by simp, _, _, _, rfl, rfl, rfl, by simp⟩) (by norm_num) φ rf rr _ _ _ exLat_states.1 rfl rfl ?_ ?_ ?_ h1
  · intro f p c' hf hp hc'
    have : f = fCO := by
      have h2 : List.find? (fun x : Formula => decide (x.type = .gas)) [fCO, ⟨str! "*_s", 1, str! "*", 1, str! "s", str! "*_s"⟩] = some fCO := by decide
      exact (Option.some.inj (h2.symm.trans hf)).symm
    subst this
    have hp2 : p = 2 := (Option.some.inj hp).symm
    subst hp2
    have : c' = c := Except.ok.inj (hc'.symm.trans hc)
    subst this
    constructor
    · simp only [typesEnergy, List.map_cons, List.map_nil, List.sum_cons, List.sum_nil, add_zero]
      rw [hφ]; simp [fCO]
    · rw [hrf, mul_assoc, ← Real.exp_add, show -D / (kBeV * 450) + (-2 - ((fCO.stoich : Nat) : ℝ) * c') / (kBeV * 450) = 0 from by
        simp [fCO, D]; ring]
      simp
  · intro f p c' hn
    exact absurd hn (by decide)
  · intro hn
    exact absurd hn (by decide)

section
variable {C : Type}

/-- **C120** Which definitions of processes a lattice model with calculated energies accepts, by transition state theory: those that name a reaction of the model,
give the elements before and after both as lists or both as tuples, use known types, and have a pressure under the text of every gas at the ends of the reaction; a gas written
with a coefficient has none (C21). The processes are made exactly if all definitions are such. -/
theorem C120_made (ro : RateOwner) (hT : 0 < ro.T) (E : Dict Str ℝ) (r : Rel ℝ)
    (hr : relativeFromAbsolute (some E) ro.rxns = .ok r) (types : List Str) (ds : List (ProcDict C)) (m : List Str) :
    (getProcesses (latticeOwner ro .TST ⟨some r.gaf, some r.gar, some r.dg⟩ types) ds m).1.isOk ↔
    ∀ d ∈ ds, d.reaction ∈ ro.rxns ∧ d.mixed = false ∧ (∀ e, e ∈ d.before ∨ e ∈ d.after → e = ['*'] ∨ e ∈ types) ∧
      ∀ states is fs, eqnFormulas d.reaction = .ok states → states.head? = some is → states.getLast? = some fs →
        ∀ g ∈ is ++ fs, g.type = .gas → g.text ∈ keys ro.pressures := by
  rw [C51_accepted]
  refine forall₂_congr fun d _ => ?_
  show d.reaction ∈ ro.rxns ∧ _ ∧ _ ∧ (ratesTST ro ⟨some r.gaf, some r.gar, some r.dg⟩ true d.reaction).isOk ↔ _
  refine and_congr_right fun hx => and_congr_right fun _ => and_congr_right fun _ => ?_
  obtain ⟨v, kf, kr, hv, hk, -⟩ := C17_from_absolute_energies E ro r hT hr d.reaction hx
  obtain ⟨states, is, fs, -, -, -, s1, s2, s3, -⟩ := singleRelative_ok hv
  have hw := C21_written ro _ d.reaction kf kr states is fs s1 s2 s3 hk
  constructor
  · intro h states' is' fs' t1 t2 t3 g hg ht
    rw [s1] at t1; cases t1
    rw [s2] at t2; cases t2
    rw [s3] at t3; cases t3
    by_contra hn
    rw [hw.2 ⟨g, hg, ht, get?_eq_none.mpr hn⟩] at h
    exact nomatch h
  · intro h
    rw [hw.1 (fun x => (get? ro.pressures x).getD 0) fun g hg ht => by
      cases hy : get? ro.pressures g.text with
      | none => exact absurd (h states is fs s1 s2 s3 g hg ht) (get?_eq_none.mp hy)
      | some y => rfl]
    rfl

example : ∃ r, relativeFromAbsolute (some exLatE) exLatOwner.rxns = .ok r ∧
    (getProcesses (latticeOwner exLatOwner .TST ⟨some r.gaf, some r.gar, some r.dg⟩ [str! "V", str! "C"]) exLatDicts []).1.isOk = true ∧
    (getProcesses (latticeOwner exLatOwner .TST ⟨some r.gaf, some r.gar, some r.dg⟩ [str! "V"]) exLatDicts []).1.isOk = false := by
  obtain ⟨r, procs, m, hr, h⟩ := exLat_ok
  refine ⟨r, hr, by rw [h]; rfl, ?_⟩
  have := C120_made exLatOwner (by norm_num [exLatOwner]) exLatE r hr [str! "V"] exLatDicts []
  rw [← Bool.not_eq_true, this]
  intro hall
  exact absurd ((hall _ List.mem_cons_self).2.2.1 (str! "C") (.inr (by decide))) (by decide)

end

end Verif
