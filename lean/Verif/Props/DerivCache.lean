import Verif.Model.DerivCache
import Verif.Lemmas.Py
import Verif.Lemmas.Dict
import Verif.Props.Jacobian
/-
C82: the Jacobian with its cache.
-/
namespace Verif
open Dict

section
variable {K : Type}

/-- Every entry of the cache is what some model of the list derives for its key. -/
def CacheFrom (os : List (MFOwner K)) (c : DerivCache K) : Prop :=
  ∀ key d, get? c key = some d → ∃ o ∈ os, polyDeriv o key.ads key.poly = .ok d

theorem CacheFrom.mono {os os' : List (MFOwner K)} {c : DerivCache K} (h : CacheFrom os c) (hs : ∀ o ∈ os, o ∈ os') : CacheFrom os' c := by
  intro key d hd
  obtain ⟨o, h1, h2⟩ := h key d hd
  exact ⟨o, hs o h1, h2⟩

theorem cachedDeriv_from {os : List (MFOwner K)} {c : DerivCache K} (h : CacheFrom os c) {o : MFOwner K} (ho : o ∈ os) (key : DerivKey) :
    CacheFrom os (cachedDeriv o c key).2 ∧ ∀ d, (cachedDeriv o c key).1 = .ok d → ∃ o' ∈ os, polyDeriv o' key.ads key.poly = .ok d := by
  unfold cachedDeriv
  cases hg : get? c key with
  | some d => exact ⟨h, fun d' hd => by rw [← Except.ok.inj hd]; exact h key d hg⟩
  | none =>
    dsimp only
    cases hp : polyDeriv o key.ads key.poly with
    | error e => exact ⟨h, fun _ hd => (nomatch hd)⟩
    | ok d =>
      refine ⟨?_, fun d' hd => by rw [← Except.ok.inj hd]; exact ⟨o, ho, hp⟩⟩
      intro k' d' hd
      rw [get?_set] at hd
      split at hd
      · rename_i hk
        subst hk
        cases hd
        exact ⟨o, ho, hp⟩
      · exact h k' d' hd

/-- The models agree on a derivative: whenever one of them has it, it is the one of `o`. -/
def AgreeOn (os : List (MFOwner K)) (o : MFOwner K) (a : Str) (q : Poly) : Prop := ∀ o' ∈ os, ∀ d, polyDeriv o' a q = .ok d → polyDeriv o a q = .ok d

theorem cachedDeriv_eq {os : List (MFOwner K)} {c : DerivCache K} (h : CacheFrom os c) {o : MFOwner K} (key : DerivKey)
    (hag : AgreeOn os o key.ads key.poly) : (cachedDeriv o c key).1 = polyDeriv o key.ads key.poly := by
  unfold cachedDeriv
  cases hg : get? c key with
  | some d =>
    obtain ⟨o', h1, h2⟩ := h key d hg
    exact (hag o' h1 d h2).symm
  | none =>
    dsimp only
    cases polyDeriv o key.ads key.poly <;> rfl

variable [Field K] [DecidableEq K]

theorem cachedRow_spec {os : List (MFOwner K)} {o : MFOwner K} (ho : o ∈ os) (env : Env K) (row : Nat) (q : Poly) (as : List Str) :
    ∀ c, CacheFrom os c → CacheFrom os (cachedRow o env row q as c).2 ∧
      ((∀ a ∈ as, AgreeOn os o a q) → (cachedRow o env row q as c).1 = as.mapM fun a => do let d ← polyDeriv o a q; evalDerived env d) := by
  induction as with
  | nil => intro c h; exact ⟨h, fun _ => rfl⟩
  | cons a as ih =>
    intro c h
    obtain ⟨h1, -⟩ := cachedDeriv_from h ho ⟨a, row, q⟩
    have h2 := fun hag => cachedDeriv_eq h (o := o) ⟨a, row, q⟩ hag
    unfold cachedRow
    generalize hx : cachedDeriv o c ⟨a, row, q⟩ = x at h1 h2
    obtain ⟨x1, c1⟩ := x
    rw [List.mapM_cons]
    cases x1 with
    | error e =>
      refine ⟨h1, fun hag => ?_⟩
      have := h2 (hag a (by simp))
      dsimp only at this
      rw [← this]
      rfl
    | ok d =>
      dsimp only
      obtain ⟨i1, i2⟩ := ih c1 h1
      cases he : evalDerived env d with
      | error e =>
        refine ⟨h1, fun hag => ?_⟩
        have := h2 (hag a (by simp))
        dsimp only at this
        rw [← this]
        show _ = Except.bind (evalDerived env d) _
        rw [he]
        rfl
      | ok v =>
        dsimp only
        generalize hy : cachedRow o env row q as c1 = y at i1 i2
        obtain ⟨y1, c2⟩ := y
        have tail : (∀ a' ∈ a :: as, AgreeOn os o a' q) →
            ((do let b ← (do let d ← polyDeriv o a q; evalDerived env d); let bs ← as.mapM fun a => (do let d ← polyDeriv o a q; evalDerived env d); pure (b :: bs)) : Py (List K))
              = y1.bind fun bs => .ok (v :: bs) := by
          intro hag
          have e1 := h2 (hag a (by simp))
          have e2 := i2 (fun a' ha => hag a' (by simp [ha]))
          dsimp only at e1 e2
          rw [← e1, ← e2]
          show Except.bind (evalDerived env d) _ = _
          rw [he]
          rfl
        cases y1 with
        | error e => exact ⟨i1, fun hag => by rw [tail hag]; rfl⟩
        | ok ys => exact ⟨i1, fun hag => by rw [tail hag]; rfl⟩

theorem cachedRows_spec {os : List (MFOwner K)} {o : MFOwner K} (ho : o ∈ os) (env : Env K) (qs : List Poly) :
    ∀ row c, CacheFrom os c → CacheFrom os (cachedRows o env row qs c).2 ∧
      ((∀ q ∈ qs, ∀ a ∈ o.net.ads, AgreeOn os o a q) →
        (cachedRows o env row qs c).1 = qs.mapM fun q => o.net.ads.mapM fun a => do let d ← polyDeriv o a q; evalDerived env d) := by
  induction qs with
  | nil => intro row c h; exact ⟨h, fun _ => rfl⟩
  | cons q qs ih =>
    intro row c h
    obtain ⟨h1, h2⟩ := cachedRow_spec ho env row q o.net.ads c h
    unfold cachedRows
    generalize cachedRow o env row q o.net.ads c = x at h1 h2
    obtain ⟨x1, c1⟩ := x
    rw [List.mapM_cons]
    cases x1 with
    | error e =>
      refine ⟨h1, fun hag => ?_⟩
      have := h2 (hag q (by simp))
      dsimp only at this
      rw [← this]
      rfl
    | ok r =>
      obtain ⟨i1, i2⟩ := ih (row + 1) c1 h1
      dsimp only
      generalize cachedRows o env (row + 1) qs c1 = y at i1 i2
      obtain ⟨y1, c2⟩ := y
      have tail : (∀ q' ∈ q :: qs, ∀ a ∈ o.net.ads, AgreeOn os o a q') →
          ((do let b ← (o.net.ads.mapM fun a => do let d ← polyDeriv o a q; evalDerived env d)
               let bs ← qs.mapM fun q => (o.net.ads.mapM fun a => do let d ← polyDeriv o a q; evalDerived env d)
               pure (b :: bs)) : Py (List (List K))) = y1.bind fun bs => .ok (r :: bs) := by
        intro hag
        have e1 := h2 (hag q (by simp))
        have e2 := i2 (fun q' hq => hag q' (by simp [hq]))
        dsimp only at e1 e2
        rw [← e1, ← e2]
        rfl
      cases y1 with
      | error e => exact ⟨i1, fun hag => by rw [tail hag]; rfl⟩
      | ok ys => exact ⟨i1, fun hag => by rw [tail hag]; rfl⟩

theorem cachedJacobian_spec {os : List (MFOwner K)} {o : MFOwner K} (ho : o ∈ os) (k : List K × List K) (cvgs : List K) (c : DerivCache K) (h : CacheFrom os c) :
    CacheFrom os (cachedJacobian o k cvgs c).2 ∧
      ((∀ b ∈ o.net.ads, ∀ q, adsorbateDtheta o b = .ok q → ∀ a ∈ o.net.ads, AgreeOn os o a q) →
        (cachedJacobian o k cvgs c).1 = analyticalJacobian o k cvgs) := by
  unfold cachedJacobian analyticalJacobian
  cases hq : o.net.ads.mapM (adsorbateDtheta o) with
  | error e => exact ⟨h, fun _ => rfl⟩
  | ok qs =>
    simp only [bind, Except.bind]
    by_cases hl : qs.length ≠ cvgs.length
    · simp only [if_pos hl]
      exact ⟨h, fun _ => trivial⟩
    · simp only [if_neg hl]
      cases he : mkEnv o k cvgs with
      | error e => exact ⟨h, fun _ => rfl⟩
      | ok env =>
        obtain ⟨h1, h2⟩ := cachedRows_spec ho env qs 0 c h
        refine ⟨h1, fun hag => h2 ?_⟩
        intro q hqm a ha
        obtain ⟨b, hb, hb'⟩ := (mapM_ok_mem hq).1 q hqm
        exact hag b hb q hb' a ha

theorem cacheAfter_from {os : List (MFOwner K)} (uses : List (JacobianUse K)) (hu : ∀ u ∈ uses, u.owner ∈ os) :
    ∀ c, CacheFrom os c → CacheFrom os (cacheAfter c uses) := by
  induction uses with
  | nil => intro c h; exact h
  | cons u uses ih =>
    intro c h
    exact ih (fun v hv => hu v (by simp [hv])) _ (cachedJacobian_spec (hu u (by simp)) u.k u.cvgs c h).1

/-- **C82** (partial) After any history of Jacobians of any models in the same program, the Jacobian of a model is the one
without cache, provided the other models have the same derivative wherever they have the same coverage equation and
adsorbate. Missing: models that share an equation but differ in adsorbates or site totals, see `C82_models_refuted`. -/
theorem C82_history_partial (uses : List (JacobianUse K)) (o : MFOwner K) (k : List K × List K) (cvgs : List K)
    (h : ∀ b ∈ o.net.ads, ∀ q, adsorbateDtheta o b = .ok q → ∀ a ∈ o.net.ads, AgreeOn (uses.map (·.owner)) o a q) :
    (cachedJacobian o k cvgs (cacheAfter [] uses)).1 = analyticalJacobian o k cvgs := by
  have hc : CacheFrom (o :: uses.map (·.owner)) (cacheAfter [] uses) :=
    cacheAfter_from uses (fun u hu => by simp only [List.mem_cons, List.mem_map]; exact .inr ⟨u, hu, rfl⟩) []
      (fun key d hd => (nomatch hd))
  refine (cachedJacobian_spec (List.mem_cons_self ..) k cvgs _ hc).2 ?_
  intro b hb q hq a ha o' ho' d hd
  rcases List.mem_cons.mp ho' with rfl | ho'
  · exact hd
  · exact h b hb q hq a ha o' ho' d hd

/-- **C82** One model alone: any history of Jacobians at any coverages and rate constants. -/
theorem C82_one_model (uses : List (JacobianUse K)) (o : MFOwner K) (hu : ∀ u ∈ uses, u.owner = o) (k : List K × List K) (cvgs : List K) :
    (cachedJacobian o k cvgs (cacheAfter [] uses)).1 = analyticalJacobian o k cvgs := by
  apply C82_history_partial
  intro b _ q _ a _ o' ho' d hd
  obtain ⟨u, hm, rfl⟩ := List.mem_map.mp ho'
  rw [hu u hm] at hd
  exact hd

/-- **C82** (partial) Models of the same network with the same site totals, with any pressures, concentrations and rate constants. -/
theorem C82_same_network_partial (uses : List (JacobianUse K)) (o : MFOwner K) (hu : ∀ u ∈ uses, u.owner.net = o.net ∧ u.owner.totals = o.totals)
    (k : List K × List K) (cvgs : List K) : (cachedJacobian o k cvgs (cacheAfter [] uses)).1 = analyticalJacobian o k cvgs := by
  apply C82_history_partial
  intro b _ q _ a _ o' ho' d hd
  obtain ⟨u, hm, rfl⟩ := List.mem_map.mp ho'
  obtain ⟨h1, h2⟩ := hu u hm
  have e : polyDeriv u.owner a q = polyDeriv o a q := by
    unfold polyDeriv totalDeriv
    rw [h1, h2]
  rw [e] at hd
  exact hd

end

/-! ### Several models -/

def exOxyNet (rxns : List Str) : Network := match parseNetwork rxns with | .ok n => n | .error _ => ⟨[], [], [], [], [], []⟩

/-- Dissociative adsorption of oxygen, alone and with another adsorbate. -/
def exOxyRxns : List Str := [str! "O2_g + 2*_s -> 2O_s"]
def exOxy : MFOwner ℚ := ⟨exOxyRxns, exOxyNet exOxyRxns, [(str! "*_s", 1)], [(str! "O2_g", 1)], []⟩
def exOxySRxns : List Str := [str! "O2_g + 2*_s -> 2O_s", str! "S_g + *_s -> S_s"]
def exOxyS : MFOwner ℚ := ⟨exOxySRxns, exOxyNet exOxySRxns, [(str! "*_s", 1)], [(str! "O2_g", 1), (str! "S_g", 1)], []⟩

/-- **C82** The Jacobian of a model depends on the models before it: the derivative of the same equation is taken from a model
in which fewer adsorbates share the site. -/
theorem C82_models_refuted :
    parseNetwork exOxyRxns = .ok exOxy.net ∧ parseNetwork exOxySRxns = .ok exOxyS.net ∧
    analyticalJacobian exOxyS ([1, 1], [0, 0]) [0, 1 / 2] = .ok [[-2, -2], [-1, -1]] ∧
    (cachedJacobian exOxyS ([1, 1], [0, 0]) [0, 1 / 2] (cacheAfter [] [⟨exOxy, ([1], [0]), [0]⟩])).1 = .ok [[-4, -2], [-1, -1]] := by
  decide +kernel

/-- **C82** In the other order the Jacobian of the smaller model can not be evaluated any more. -/
theorem C82_missing_refuted :
    (analyticalJacobian exOxy ([1], [0]) [0]).isOk ∧
    (cachedJacobian exOxy ([1], [0]) [0] (cacheAfter [] [⟨exOxyS, ([1, 1], [0, 0]), [0, 1 / 2]⟩])).1 = .error .KeyError := by
  decide +kernel

/-- A history of two other points of one model, and of another model with other pressures. -/
example : (∀ u ∈ ([⟨exOxyS, ([1, 1], [0, 0]), [0, 1 / 2]⟩, ⟨exOxyS, ([2, 1], [3, 0]), [1 / 4, 1 / 2]⟩] : List (JacobianUse ℚ)), u.owner = exOxyS) ∧
    ∀ u ∈ ([⟨{ exOxyS with pressures := [(str! "O2_g", 5), (str! "S_g", 1)] }, ([1, 1], [0, 0]), [0, 1 / 2]⟩] : List (JacobianUse ℚ)),
      u.owner.net = exOxyS.net ∧ u.owner.totals = exOxyS.totals :=
  ⟨by simp, by simp⟩

/-! ### The theorems at these cases -/

example := C82_one_model [⟨exOxyS, ([1, 1], [0, 0]), [0, 1 / 2]⟩, ⟨exOxyS, ([2, 1], [3, 0]), [1 / 4, 1 / 2]⟩] exOxyS (by simp) ([1, 1], [0, 0]) [0, 1 / 2]

example := C82_same_network_partial [⟨{ exOxyS with pressures := [(str! "O2_g", 5), (str! "S_g", 1)] }, ([1, 1], [0, 0]), [0, 1 / 2]⟩] exOxyS (by simp)
  ([1, 1], [0, 0]) [0, 1 / 2]

end Verif
