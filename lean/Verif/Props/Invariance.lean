import Verif.Props.MeanField
/-
Properties C87, C88, C89: what the results do not depend on (order in which the reactions are
listed, direction in which they are written) and how they depend on the unit of time.
-/
namespace Verif
open Dict
set_option linter.unusedSectionVars false
variable {K : Type} [Field K]

/-! ## C87 order of the reactions -/

/-- The states of a reaction text that is accepted. -/
def statesOf (rxn : Str) : List (List Formula) :=
  match eqnFormulas rxn with
  | .ok st => st
  | .error _ => []

/-- Number, rate constant and activities of a state multiplied; the constants of `env` are not
used. -/
def stateValue (env : Env K) (n : Nat) (κ : K) (fs : List Formula) : Py K := do
  let xs ← (fs.map factorOf).mapM (evalFactor env)
  pure ((n : K) * κ * xs.prod)

/-- The first (last) state of a reaction text; empty if there is none. -/
def endOf (first : Bool) (rxn : Str) : List Formula :=
  match if first then (statesOf rxn).head? else (statesOf rxn).getLast? with
  | some fs => fs
  | none => []

theorem text_states {rxns : List Str} {n : Network} (h : parseNetwork rxns = .ok n) :
    n.rxns = rxns.map statesOf ∧ ∀ rxn ∈ rxns, eqnFormulas rxn = .ok (statesOf rxn) ∧
      (statesOf rxn).head? = some (endOf true rxn) ∧ (statesOf rxn).getLast? = some (endOf false rxn) := by
  have hone : ∀ rxn ∈ rxns, eqnFormulas rxn = .ok (statesOf rxn) ∧
      (statesOf rxn).head? = some (endOf true rxn) ∧ (statesOf rxn).getLast? = some (endOf false rxn) := by
    intro rxn hx
    obtain ⟨i, hi, rfl⟩ := List.mem_iff_getElem.mp hx
    obtain ⟨st, is, fs, g1, -, -, g4, g5, -⟩ := states_ok h hi
    have hst : statesOf rxns[i] = st := by unfold statesOf; rw [g1]
    unfold endOf
    simp only [hst, g1, g4, g5, if_true, Bool.false_eq_true, if_false, and_self]
  refine ⟨?_, hone⟩
  apply List.ext_getElem
  · simp [length_rxns h]
  · intro i h1 h2
    have hi : i < rxns.length := by simpa using h2
    obtain ⟨st, is, fs, g1, g2, -⟩ := states_ok h hi
    rw [List.getElem?_eq_getElem h1] at g2
    rw [List.getElem_map, Option.some.inj g2]
    unfold statesOf
    rw [g1]

theorem evalTerm_state {env : Env K} {n i : Nat} {b : Bool} {κ : K} {fs : List Formula}
    (h : (if b then env.kf else env.kr)[i]? = some κ) :
    evalTerm env ⟨n, b, i, fs.map factorOf⟩ = stateValue env n κ fs := by
  unfold evalTerm stateValue
  simp only [h]
  rfl

theorem stateValue_env {env env' : Env K} (h1 : env'.theta = env.theta) (h2 : env'.p = env.p) (h3 : env'.c = env.c)
    (n : Nat) (κ : K) (fs : List Formula) : stateValue env' n κ fs = stateValue env n κ fs := by
  unfold stateValue
  have : evalFactor env' = evalFactor env := by
    funext f
    unfold evalFactor
    rw [h1, h2, h3]
  rw [this]

theorem mapM_through {α β γ : Type} {f : α → Py β} {g : β → Py γ} {e : α → Py γ} {l : List α} {m : List β}
    (h : l.mapM f = .ok m) (hg : ∀ x ∈ l, ∀ y, f x = .ok y → g y = e x) : m.mapM g = l.mapM e := by
  induction l generalizing m with
  | nil => cases h; rfl
  | cons a l ih =>
    rw [List.mapM_cons, bind_ok] at h
    obtain ⟨b, hb, h⟩ := h
    rw [bind_ok] at h
    obtain ⟨bs, hbs, h⟩ := h
    cases h
    rw [List.mapM_cons, List.mapM_cons, hg a (by simp) b hb, ih hbs fun x hx => hg x (by simp [hx])]

theorem rateTerms_text {o : MFOwner K} (h : parseNetwork o.rxns = .ok o.net) {rxn : Str} (hx : rxn ∈ o.rxns) :
    rateTerms o rxn = .ok (⟨1, true, o.rxns.idxOf rxn, (endOf true rxn).map factorOf⟩,
      ⟨1, false, o.rxns.idxOf rxn, (endOf false rxn).map factorOf⟩) := by
  obtain ⟨e1, e2, e3⟩ := (text_states h).2 rxn hx
  obtain ⟨i, hi, rfl⟩ := List.mem_iff_getElem.mp hx
  exact rateTerms_ok h hi e1 e2 e3

theorem map_idx {rxns : List Str} (κ : Str → K) {rxn : Str} (hx : rxn ∈ rxns) :
    (rxns.map κ)[rxns.idxOf rxn]? = some (κ rxn) := by
  have hlt := List.idxOf_lt_length_of_mem hx
  rw [List.getElem?_map, List.getElem?_eq_getElem hlt, List.getElem_idxOf]
  rfl

theorem env_constants {o : MFOwner K} {k : List K × List K} {cvgs : List K} {env : Env K}
    (he : mkEnv o k cvgs = .ok env) : env.kf = k.1 ∧ env.kr = k.2 := by
  unfold mkEnv at he
  rw [bind_ok] at he
  obtain ⟨θ, -, he⟩ := he
  rw [bind_ok] at he
  obtain ⟨d, -, he⟩ := he
  cases he
  exact ⟨rfl, rfl⟩

/-- Rates of the texts, one by one. -/
theorem getRates_text {o : MFOwner K} (h : parseNetwork o.rxns = .ok o.net) (κf κr : Str → K) (cvgs : List K) :
    getRates o (o.rxns.map κf, o.rxns.map κr) cvgs = (do
      let env ← mkEnv o (o.rxns.map κf, o.rxns.map κr) cvgs
      let rfs ← o.rxns.mapM fun rxn => stateValue env 1 (κf rxn) (endOf true rxn)
      let rrs ← o.rxns.mapM fun rxn => stateValue env 1 (κr rxn) (endOf false rxn)
      pure (rfs, rrs)) := by
  unfold getRates
  cases he : mkEnv o (o.rxns.map κf, o.rxns.map κr) cvgs with
  | error e => rfl
  | ok env =>
    obtain ⟨ef, er⟩ := env_constants he
    have hts : ∃ ts, o.rxns.mapM (rateTerms o) = .ok ts :=
      mapM_ok_exists fun rxn hx => ⟨_, rateTerms_text h hx⟩
    obtain ⟨ts, hts⟩ := hts
    simp only [bind, Except.bind, hts]
    rw [mapM_through (e := fun rxn => stateValue env 1 (κf rxn) (endOf true rxn)) hts,
      mapM_through (e := fun rxn => stateValue env 1 (κr rxn) (endOf false rxn)) hts]
    · intro rxn hx t ht
      rw [rateTerms_text h hx] at ht
      cases ht
      apply evalTerm_state
      simp only [Bool.false_eq_true, if_false, er]
      exact map_idx κr hx
    · intro rxn hx t ht
      rw [rateTerms_text h hx] at ht
      cases ht
      apply evalTerm_state
      simp only [if_true, ef]
      exact map_idx κf hx

/-- One summand of `evalPoly`. -/
def signedTerm (env : Env K) (t : Bool × Term) : Py K := do
  let x ← evalTerm env t.2
  pure (if t.1 then x else -x)

theorem evalPoly_signed (env : Env K) (q : Poly) : evalPoly env q = (q.mapM (signedTerm env)).map List.sum := by
  unfold evalPoly signedTerm
  cases h : (q.mapM fun t : Bool × Term => (do
      let x ← evalTerm env t.2
      pure (if t.1 then x else -x) : Py K)) with
  | error e => rfl
  | ok xs => rfl

/-- The signed summands which the coverage equation of `a` takes from a reaction text. -/
def textParts (env : Env K) (κf κr : Str → K) (a rxn : Str) : Py (List K) :=
  match findAds a (statesOf rxn) with
  | none => .ok []
  | some (0, n) => do
    let x ← stateValue env n (κr rxn) (endOf false rxn)
    let y ← stateValue env n (κf rxn) (endOf true rxn)
    pure [x, -y]
  | some (_ + 1, n) => do
    let x ← stateValue env n (κf rxn) (endOf true rxn)
    let y ← stateValue env n (κr rxn) (endOf false rxn)
    pure [x, -y]

/-- The two terms which the coverage equation of `a` takes from a reaction text. -/
def textTerms (o : MFOwner K) (a rxn : Str) : Option (Term × Term) :=
  match findAds a (statesOf rxn) with
  | none => none
  | some (0, n) => some (⟨n, false, o.rxns.idxOf rxn, (endOf false rxn).map factorOf⟩,
      ⟨n, true, o.rxns.idxOf rxn, (endOf true rxn).map factorOf⟩)
  | some (_ + 1, n) => some (⟨n, true, o.rxns.idxOf rxn, (endOf true rxn).map factorOf⟩,
      ⟨n, false, o.rxns.idxOf rxn, (endOf false rxn).map factorOf⟩)

theorem elementary_text {o : MFOwner K} (h : parseNetwork o.rxns = .ok o.net) {a rxn : Str} (ha : a ∈ o.net.ads)
    (hx : rxn ∈ o.rxns) : elementaryDtheta o a rxn = .ok (textTerms o a rxn) := by
  unfold elementaryDtheta textTerms
  rw [if_neg (by simpa using ha), ((text_states h).2 rxn hx).1]
  simp only [bind, Except.bind]
  cases findAds a (statesOf rxn) with
  | none => rfl
  | some x =>
    obtain ⟨i, n⟩ := x
    simp only [rateTerms_text h hx]
    cases i with
    | zero => rfl
    | succ i => rfl

theorem mapM_flatMap' {α β γ : Type} (F : α → List β) (g : β → Py γ) (l : List α) :
    (l.flatMap F).mapM g = (l.mapM fun x => (F x).mapM g).map List.flatten := by
  induction l with
  | nil => rfl
  | cons a l ih =>
    rw [List.flatMap_cons, List.mapM_append, ih, List.mapM_cons]
    cases (F a).mapM g with
    | error e => rfl
    | ok b =>
      cases l.mapM (fun x => (F x).mapM g) with
      | error e => rfl
      | ok bs => rfl

theorem mapM_same {α β : Type} {f g : α → Py β} {l : List α} (h : ∀ x ∈ l, f x = g x) : l.mapM f = l.mapM g := by
  induction l with
  | nil => rfl
  | cons a l ih => rw [List.mapM_cons, List.mapM_cons, h a (by simp), ih fun x hx => h x (by simp [hx])]

/-- The terms of an optional pair, signed. -/
def partsOf (x : Option (Term × Term)) : List (Bool × Term) :=
  match x with
  | none => []
  | some (inc, dec) => [(true, inc), (false, dec)]

theorem parts_text {o : MFOwner K} {env : Env K} {κf κr : Str → K} (ef : env.kf = o.rxns.map κf)
    (er : env.kr = o.rxns.map κr) {a rxn : Str} (hx : rxn ∈ o.rxns) :
    (partsOf (textTerms o a rxn)).mapM (signedTerm env) = textParts env κf κr a rxn := by
  have v1 : ∀ n, evalTerm env ⟨n, true, o.rxns.idxOf rxn, (endOf true rxn).map factorOf⟩
      = stateValue env n (κf rxn) (endOf true rxn) := fun n => evalTerm_state (by
    simp only [if_true, ef]; exact map_idx κf hx)
  have v2 : ∀ n, evalTerm env ⟨n, false, o.rxns.idxOf rxn, (endOf false rxn).map factorOf⟩
      = stateValue env n (κr rxn) (endOf false rxn) := fun n => evalTerm_state (by
    simp only [Bool.false_eq_true, if_false, er]; exact map_idx κr hx)
  unfold textTerms textParts
  cases findAds a (statesOf rxn) with
  | none => rfl
  | some x =>
    obtain ⟨i, n⟩ := x
    cases i with
    | zero =>
      simp only [partsOf, List.mapM_cons, List.mapM_nil, signedTerm, v1, v2]
      cases stateValue env n (κr rxn) (endOf false rxn) with
      | error e => rfl
      | ok x =>
        cases stateValue env n (κf rxn) (endOf true rxn) with
        | error e => rfl
        | ok y => rfl
    | succ i =>
      simp only [partsOf, List.mapM_cons, List.mapM_nil, signedTerm, v1, v2]
      cases stateValue env n (κf rxn) (endOf true rxn) with
      | error e => rfl
      | ok x =>
        cases stateValue env n (κr rxn) (endOf false rxn) with
        | error e => rfl
        | ok y => rfl

theorem adsorbate_text {o : MFOwner K} (h : parseNetwork o.rxns = .ok o.net) {a : Str} (ha : a ∈ o.net.ads) :
    adsorbateDtheta o a = .ok (o.rxns.flatMap fun rxn => partsOf (textTerms o a rxn)) := by
  unfold adsorbateDtheta
  rw [mapM_ok_map (g := textTerms o a) fun rxn hx => elementary_text h ha hx]
  simp only [bind, Except.bind, pure, Except.pure]
  rw [List.flatMap_map]
  rfl

theorem steady_text {o : MFOwner K} (h : parseNetwork o.rxns = .ok o.net) (κf κr : Str → K) (cvgs : List K) :
    steadyStateFunction o (o.rxns.map κf, o.rxns.map κr) cvgs = (do
      let env ← mkEnv o (o.rxns.map κf, o.rxns.map κr) cvgs
      o.net.ads.mapM fun a => (o.rxns.mapM (textParts env κf κr a)).map fun l => l.flatten.sum) := by
  unfold steadyStateFunction
  cases he : mkEnv o (o.rxns.map κf, o.rxns.map κr) cvgs with
  | error e => rfl
  | ok env =>
    obtain ⟨ef, er⟩ := env_constants he
    have hq := mapM_ok_map (l := o.net.ads) (fun a ha => adsorbate_text h (a := a) ha)
    simp only [bind, Except.bind, hq]
    apply mapM_through hq
    intro a ha q hq'
    rw [adsorbate_text h ha] at hq'
    cases hq'
    rw [evalPoly_signed, mapM_flatMap']
    rw [mapM_same fun rxn hx => parts_text ef er (a := a) hx]
    cases o.rxns.mapM (textParts env κf κr a) with
    | error e => rfl
    | ok l => rfl

theorem mapM_values {α β : Type} [Inhabited β] {f : α → Py β} {l : List α} {m : List β} (h : l.mapM f = .ok m) :
    ∃ ρ : α → β, m = l.map ρ ∧ ∀ x ∈ l, f x = .ok (ρ x) := by
  have hall : ∀ x ∈ l, ∃ y, f x = .ok y := fun x hx => by
    obtain ⟨y, -, hy⟩ := (mapM_ok_mem h).2 x hx
    exact ⟨y, hy⟩
  refine ⟨fun x => match f x with | .ok y => y | .error _ => default, ?_, ?_⟩
  · have h2 := mapM_ok_map (f := f) (g := fun x => match f x with | .ok y => y | .error _ => default) (l := l)
      fun x hx => by obtain ⟨y, hy⟩ := hall x hx; simp only [hy]
    rw [h] at h2
    exact Except.ok.inj h2
  · intro x hx
    obtain ⟨y, hy⟩ := hall x hx
    simp only [hy]

/-- Two models with the same data whose reaction lists have the same species. -/
structure SameData (o o' : MFOwner K) : Prop where
  ads : o'.net.ads = o.net.ads
  gas : o'.net.gas = o.net.gas
  liq : o'.net.liq = o.net.liq
  sites : o'.net.sites = o.net.sites
  totals : o'.totals = o.totals
  pressures : o'.pressures = o.pressures
  concs : o'.concs = o.concs

theorem mkEnv_same {o o' : MFOwner K} (h : SameData o o') (k k' : List K × List K) (cvgs : List K) :
    mkEnv o' k' cvgs = (mkEnv o k cvgs).map fun e => { e with kf := k'.1, kr := k'.2 } := by
  have h1 : cvgTuple2Dict o' cvgs = cvgTuple2Dict o cvgs := by
    unfold cvgTuple2Dict classifyAds
    rw [h.ads, h.sites, h.totals]
  have h2 : getData o' = getData o := by
    unfold getData
    rw [h.gas, h.liq, h.pressures, h.concs]
  unfold mkEnv
  rw [h1, h2]
  cases cvgTuple2Dict o cvgs with
  | error e => rfl
  | ok d =>
    cases getData o with
    | error e => rfl
    | ok q => rfl

theorem sameData_of_perm {o o' : MFOwner K} (h : parseNetwork o.rxns = .ok o.net)
    (h' : parseNetwork o'.rxns = .ok o'.net) (hp : o.rxns.Perm o'.rxns) (e1 : o'.totals = o.totals)
    (e2 : o'.pressures = o.pressures) (e3 : o'.concs = o.concs) : SameData o o' := by
  obtain ⟨n', hn', hk, hs, -⟩ := C08_order_independent _ _ hp _ h
  rw [h'] at hn'
  cases hn'
  exact ⟨hk .ads, hk .gas, hk .liquid, hs, e1, e2, e3⟩

theorem stateValue_consts (env : Env K) (kf kr : List K) (n : Nat) (κ : K) (fs : List Formula) :
    stateValue { env with kf := kf, kr := kr } n κ fs = stateValue env n κ fs :=
  stateValue_env rfl rfl rfl n κ fs

theorem textParts_consts (env : Env K) (kf kr : List K) (κf κr : Str → K) (a rxn : Str) :
    textParts { env with kf := kf, kr := kr } κf κr a rxn = textParts env κf κr a rxn := by
  unfold textParts
  simp only [stateValue_consts]

/-- The order in which the reactions are listed does not matter: each reaction keeps its rates,
and the coverage derivatives and turnover frequencies are the same lists. For every network that
gives results at all. -/
theorem C87_order (o o' : MFOwner K) (h : parseNetwork o.rxns = .ok o.net)
    (h' : parseNetwork o'.rxns = .ok o'.net) (hp : o.rxns.Perm o'.rxns) (e1 : o'.totals = o.totals)
    (e2 : o'.pressures = o.pressures) (e3 : o'.concs = o.concs) (κf κr : Str → K) (cvgs : List K) :
    (∀ rfs rrs, getRates o (o.rxns.map κf, o.rxns.map κr) cvgs = .ok (rfs, rrs) →
      (∃ ρf ρr, rfs = o.rxns.map ρf ∧ rrs = o.rxns.map ρr ∧
        getRates o' (o'.rxns.map κf, o'.rxns.map κr) cvgs = .ok (o'.rxns.map ρf, o'.rxns.map ρr)) ∧
      ∃ tofs, getTof o (o.rxns.map κf, o.rxns.map κr) cvgs = .ok tofs ∧
        getTof o' (o'.rxns.map κf, o'.rxns.map κr) cvgs = .ok tofs) ∧
    (∀ d, steadyStateFunction o (o.rxns.map κf, o.rxns.map κr) cvgs = .ok d →
      steadyStateFunction o' (o'.rxns.map κf, o'.rxns.map κr) cvgs = .ok d) := by
  have hs := sameData_of_perm h h' hp e1 e2 e3
  have henv := mkEnv_same hs (o.rxns.map κf, o.rxns.map κr) (o'.rxns.map κf, o'.rxns.map κr) cvgs
  haveI : Inhabited K := ⟨0⟩
  constructor
  · intro rfs rrs hr
    have hr0 := hr
    rw [getRates_text h, bind_ok] at hr
    obtain ⟨env, he, hr⟩ := hr
    rw [bind_ok] at hr
    obtain ⟨x, hx, hr⟩ := hr
    rw [bind_ok] at hr
    obtain ⟨y, hy, hr⟩ := hr
    cases hr
    obtain ⟨ρf, rfl, hf⟩ := mapM_values hx
    obtain ⟨ρr, rfl, hrv⟩ := mapM_values hy
    rw [he] at henv
    have hr' : getRates o' (o'.rxns.map κf, o'.rxns.map κr) cvgs = .ok (o'.rxns.map ρf, o'.rxns.map ρr) := by
      rw [getRates_text h', henv]
      simp only [Except.map, bind, Except.bind, stateValue_consts]
      rw [mapM_ok_map fun rxn hx => hf rxn (hp.mem_iff.mpr hx), mapM_ok_map fun rxn hx => hrv rxn (hp.mem_iff.mpr hx)]
      rfl
    refine ⟨⟨ρf, ρr, rfl, rfl, hr'⟩, ?_⟩
    have hnet : getNetRates o (o.rxns.map κf, o.rxns.map κr) cvgs = .ok (o.rxns.map fun r => ρf r - ρr r) := by
      unfold getNetRates
      rw [hr0]
      simp only [bind, Except.bind, pure, Except.pure]
      rw [List.zipWith_map, List.zipWith_self]
    have hnet' : getNetRates o' (o'.rxns.map κf, o'.rxns.map κr) cvgs = .ok (o'.rxns.map fun r => ρf r - ρr r) := by
      unfold getNetRates
      rw [hr']
      simp only [bind, Except.bind, pure, Except.pure]
      rw [List.zipWith_map, List.zipWith_self]
    refine ⟨_, (C69_turnover o _ cvgs _ h hnet (by simp)).1, ?_⟩
    rw [(C69_turnover o' _ cvgs _ h' hnet' (by simp)).1, hs.gas, hs.liq]
    congr 1
    apply List.map_congr_left
    intro g _
    unfold production
    rw [(text_states h).1, (text_states h').1, List.zipWith_map, List.zipWith_self, List.zipWith_map,
      List.zipWith_self]
    exact ((hp.map _).sum_eq).symm
  · intro d hd
    rw [steady_text h, bind_ok] at hd
    obtain ⟨env, he, hd⟩ := hd
    rw [he] at henv
    rw [steady_text h', henv]
    simp only [Except.map, bind, Except.bind]
    rw [hs.ads]
    rw [← hd]
    apply mapM_same
    intro a ha
    obtain ⟨y, -, hy⟩ := (mapM_ok_mem hd).2 a ha
    cases hm : o.rxns.mapM (textParts env κf κr a) with
    | error e => rw [hm] at hy; cases hy
    | ok l =>
      obtain ⟨l', hl', hperm⟩ := mapM_ok_perm hp hm
      rw [show o'.rxns.mapM (textParts { env with kf := o'.rxns.map κf, kr := o'.rxns.map κr } κf κr a) = .ok l' from
        (congrArg (fun f => o'.rxns.mapM f) (funext fun rxn => textParts_consts env _ _ κf κr a rxn)).trans hl']
      exact congrArg Except.ok hperm.flatten.sum_eq.symm

theorem relOf_text {E : Dict Str ℝ} {rxns : List Str} {r : Rel ℝ}
    (hr : relativeFromAbsolute (some E) rxns = .ok r) {rxn : Str} (hx : rxn ∈ rxns) :
    relOf rxns ⟨some r.gaf, some r.gar, some r.dg⟩ rxn = singleRelative E rxn := by
  obtain ⟨-, -, -, hi⟩ := C12_lists E rxns r hr
  have hlt : rxns.idxOf rxn < rxns.length := List.idxOf_lt_length_of_mem hx
  obtain ⟨v, hv, e1, e2, e3⟩ := hi _ hlt
  rw [List.getElem_idxOf] at hv
  rw [hv]
  exact relOf_ok.mpr ⟨hx, _, _, _, rfl, rfl, rfl, e1, e2, e3⟩

/-- The rate constants computed from a table of energies belong to the texts: listing the
reactions in another order gives each text the same constants, with both methods. So `C87_order`
applies to them. -/
theorem C87_constants (E : Dict Str ℝ) (ro : RateOwner) (rxns' : List Str) (hp : ro.rxns.Perm rxns') (r : Rel ℝ)
    (hr : relativeFromAbsolute (some E) ro.rxns = .ok r) (algo : RateAlgo) (kf kr : List ℝ)
    (hk : rateConstants ro algo ⟨some r.gaf, some r.gar, some r.dg⟩ = .ok (kf, kr)) :
    ∃ κf κr r', kf = ro.rxns.map κf ∧ kr = ro.rxns.map κr ∧ relativeFromAbsolute (some E) rxns' = .ok r' ∧
      rateConstants { ro with rxns := rxns' } algo ⟨some r'.gaf, some r'.gar, some r'.dg⟩
        = .ok (rxns'.map κf, rxns'.map κr) := by
  have hr' : ∃ r', relativeFromAbsolute (some E) rxns' = .ok r' := by
    obtain ⟨l, hl, -⟩ := relativeFromAbsolute_ok hr
    obtain ⟨l', hl', -⟩ := mapM_ok_perm hp hl
    refine ⟨⟨l'.map (·.gaf), l'.map (·.gar), l'.map (·.dg)⟩, ?_⟩
    unfold relativeFromAbsolute
    have : (rxns'.mapM fun r => match some E with
      | none => (.error .AttributeError : Py (Rel1 ℝ))
      | some E => singleRelative E r) = .ok l' := hl'
    rw [this]; rfl
  obtain ⟨r', hr'⟩ := hr'
  have key : ∀ (g : Str → Py (ℝ × ℝ)) (g' : Str → Py (ℝ × ℝ)), (∀ rxn ∈ ro.rxns, g' rxn = g rxn) →
      ro.rxns.mapM g = .ok (kf.zip kr) → kf.length = kr.length → ∃ κf κr, kf = ro.rxns.map κf ∧ kr = ro.rxns.map κr ∧
        (do let l ← rxns'.mapM g'; pure (l.map (·.1), l.map (·.2)) : Py (List ℝ × List ℝ))
          = .ok (rxns'.map κf, rxns'.map κr) := by
    intro g g' hg hm hlen
    obtain ⟨ρ, e, hρ⟩ := mapM_values hm
    refine ⟨fun x => (ρ x).1, fun x => (ρ x).2, ?_, ?_, ?_⟩
    · have := congrArg (List.map Prod.fst) e
      rw [List.map_fst_zip (by omega), List.map_map] at this
      exact this
    · have := congrArg (List.map Prod.snd) e
      rw [List.map_snd_zip (by omega), List.map_map] at this
      exact this
    · rw [mapM_ok_map (g := ρ) fun rxn hx => by rw [hg rxn (hp.mem_iff.mpr hx)]; exact hρ rxn (hp.mem_iff.mpr hx)]
      simp [bind, Except.bind, pure, Except.pure, Function.comp_def]
  have hrel : ∀ rxn ∈ ro.rxns, relOf rxns' ⟨some r'.gaf, some r'.gar, some r'.dg⟩ rxn
      = relOf ro.rxns ⟨some r.gaf, some r.gar, some r.dg⟩ rxn := by
    intro rxn hx
    rw [relOf_text hr hx, relOf_text hr' (hp.mem_iff.mp hx)]
  have unz : ∀ g : Str → Py (ℝ × ℝ), (do let l ← ro.rxns.mapM g; pure (l.map (·.1), l.map (·.2)) : Py (List ℝ × List ℝ))
      = .ok (kf, kr) → ro.rxns.mapM g = .ok (kf.zip kr) ∧ kf.length = kr.length := by
    intro g hg
    rw [bind_ok] at hg
    obtain ⟨l, hl, e⟩ := hg
    cases e
    refine ⟨?_, by simp⟩
    rw [hl]
    congr 1
    apply List.ext_getElem
    · simp
    · intro i h1 h2; simp
  unfold rateConstants at hk
  rw [if_neg (by simp)] at hk
  cases algo with
  | TST =>
    obtain ⟨u1, u2⟩ := unz _ hk
    obtain ⟨κf, κr, a1, a2, a3⟩ := key _ (ratesTST { ro with rxns := rxns' } ⟨some r'.gaf, some r'.gar, some r'.dg⟩ false)
      (fun rxn hx => by unfold ratesTST; dsimp only; rw [hrel rxn hx]) u1 u2
    refine ⟨κf, κr, r', a1, a2, hr', ?_⟩
    unfold rateConstants
    rw [if_neg (by simp)]
    exact a3
  | CT =>
    obtain ⟨u1, u2⟩ := unz _ hk
    obtain ⟨κf, κr, a1, a2, a3⟩ := key _ (ratesCT { ro with rxns := rxns' } ⟨some r'.gaf, some r'.gar, some r'.dg⟩ false)
      (fun rxn hx => by unfold ratesCT; dsimp only; rw [hrel rxn hx]; rfl) u1 u2
    refine ⟨κf, κr, r', a1, a2, hr', ?_⟩
    unfold rateConstants
    rw [if_neg (by simp)]
    exact a3
  | other => cases hk

/-- CO oxidation with the reactions listed in another order. -/
example : ∃ o' : MFOwner ℚ, exMF.rxns.Perm o'.rxns ∧ o'.rxns ≠ exMF.rxns ∧
    parseNetwork o'.rxns = .ok o'.net ∧ o'.totals = exMF.totals ∧ o'.pressures = exMF.pressures ∧
    steadyStateFunction o' ([5, 2, 3], [13, 7, 11]) [1 / 4, 1 / 4]
      = steadyStateFunction exMF ([2, 3, 5], [7, 11, 13]) [1 / 4, 1 / 4] := by
  refine ⟨⟨exRxns.drop 2 ++ exRxns.take 2, netOf (exRxns.drop 2 ++ exRxns.take 2), exMF.totals, exMF.pressures, []⟩,
    ?_, by decide, by decide, rfl, rfl, by decide +kernel⟩
  have : exMF.rxns = exRxns.take 2 ++ exRxns.drop 2 := by decide
  rw [this]
  exact List.perm_append_comm

/-! ## C88 direction of the reactions -/

/-- The second model has the same reactions, some of them written in the other direction, with
forward and reverse constants exchanged for these. -/
structure Redirected (rxns rxns' : List Str) (k k' : List K × List K) : Prop where
  len : rxns'.length = rxns.length
  each : ∀ i (h : i < rxns.length) (h' : i < rxns'.length),
    (rxns'[i] = rxns[i] ∧ k'.1[i]? = k.1[i]? ∧ k'.2[i]? = k.2[i]?) ∨
    (eqnRevert rxns[i] = .ok rxns'[i] ∧ k'.1[i]? = k.2[i]? ∧ k'.2[i]? = k.1[i]?)

theorem occursIn_redirected {rxns rxns' : List Str} {k k' : List K × List K} (h : Redirected rxns rxns' k k')
    (hok : ∀ rxn ∈ rxns, ∃ fss, eqnFormulas rxn = .ok fss) (f : Formula) : OccursIn rxns' f ↔ OccursIn rxns f := by
  unfold OccursIn
  constructor
  · rintro ⟨s, hs, fss, h1, fs, h2, h3⟩
    obtain ⟨i, hi, rfl⟩ := List.mem_iff_getElem.mp hs
    have hi' : i < rxns.length := by rw [← h.len]; exact hi
    rcases h.each i hi' hi with ⟨e, -⟩ | ⟨e, -⟩
    · exact ⟨_, List.getElem_mem hi', fss, by rw [← e]; exact h1, fs, h2, h3⟩
    · obtain ⟨fss', h4⟩ := hok _ (List.getElem_mem hi')
      rw [eqnFormulas_revert e, h4] at h1
      cases h1
      exact ⟨_, List.getElem_mem hi', fss', h4, fs, List.mem_reverse.mp h2, h3⟩
  · rintro ⟨s, hs, fss, h1, fs, h2, h3⟩
    obtain ⟨i, hi, rfl⟩ := List.mem_iff_getElem.mp hs
    have hi' : i < rxns'.length := by rw [h.len]; exact hi
    rcases h.each i hi hi' with ⟨e, -⟩ | ⟨e, -⟩
    · exact ⟨_, List.getElem_mem hi', fss, by rw [e]; exact h1, fs, h2, h3⟩
    · refine ⟨_, List.getElem_mem hi', fss.reverse, ?_, fs, List.mem_reverse.mpr h2, h3⟩
      rw [eqnFormulas_revert e, h1]; rfl

theorem sameData_of_redirected {o o' : MFOwner K} {k k' : List K × List K} (h : parseNetwork o.rxns = .ok o.net)
    (h' : parseNetwork o'.rxns = .ok o'.net) (hd : Redirected o.rxns o'.rxns k k') (e1 : o'.totals = o.totals)
    (e2 : o'.pressures = o.pressures) (e3 : o'.concs = o.concs) : SameData o o' := by
  have hocc := occursIn_redirected hd fun rxn hx => ⟨_, ((text_states h).2 rxn hx).1⟩
  have hn : ∀ kk : SpecKind, kk ≠ .empty → o'.net.names kk = o.net.names kk := by
    intro kk hk
    apply StrSorted.ext ((lists_sorted _ _ h').1 kk).1 ((lists_sorted _ _ h).1 kk).1
    intro x
    rw [mem_names_iff h' kk hk, mem_names_iff h kk hk]
    simp only [hocc]
  refine ⟨hn .ads (by decide), hn .gas (by decide), hn .liquid (by decide), ?_, e1, e2, e3⟩
  apply StrSorted.ext (lists_sorted _ _ h').2.1 (lists_sorted _ _ h).2.1
  intro x
  rw [C08_site_names _ _ h', C08_site_names _ _ h]
  simp only [hocc]

theorem produced_reverse (x : Str) (st : List (List Formula)) : produced x st.reverse = - produced x st := by
  unfold produced
  rw [List.head?_reverse, List.getLast?_reverse]
  ring

/-- The direction in which a reaction is written does not matter: its forward and reverse rates are
exchanged, all other rates, the turnover frequencies and the coverage derivatives stay the same.
Missing: what C25 misses, and for the derivatives what C26 misses. -/
theorem C88_direction_partial (o o' : MFOwner K) (total P C : Str → K) (h : Ready o total P C)
    (h' : parseNetwork o'.rxns = .ok o'.net) (e1 : o'.totals = o.totals) (e2 : o'.pressures = o.pressures)
    (e3 : o'.concs = o.concs) (hc : ∀ states ∈ o.net.rxns, RateClean states) (v : Str → K)
    (k k' : List K × List K) (κf κr κf' κr' : Str → K)
    (hkf : KOk o.rxns k.1 κf) (hkr : KOk o.rxns k.2 κr) (hkf' : KOk o'.rxns k'.1 κf') (hkr' : KOk o'.rxns k'.2 κr')
    (hd : Redirected o.rxns o'.rxns k k') :
    o'.net.ads = o.net.ads ∧ o'.net.gas = o.net.gas ∧ o'.net.liq = o.net.liq ∧
    ∃ rfs rrs rfs' rrs', getRates o k (o.net.ads.map v) = .ok (rfs, rrs) ∧
      getRates o' k' (o.net.ads.map v) = .ok (rfs', rrs') ∧
      (∀ i (h : i < o.rxns.length) (h' : i < o'.rxns.length),
        (o'.rxns[i] = o.rxns[i] → k'.1[i]? = k.1[i]? → k'.2[i]? = k.2[i]? → rfs'[i]? = rfs[i]? ∧ rrs'[i]? = rrs[i]?) ∧
        (eqnRevert o.rxns[i] = .ok o'.rxns[i] → k'.1[i]? = k.2[i]? → k'.2[i]? = k.1[i]? →
          rfs'[i]? = rrs[i]? ∧ rrs'[i]? = rfs[i]?)) ∧
      getTof o' k' (o.net.ads.map v) = getTof o k (o.net.ads.map v) ∧
      ((∀ a ∈ o.net.ads, ∀ states ∈ o.net.rxns, OneSided a states) →
        (∀ a ∈ o.net.ads, ∀ states ∈ o'.net.rxns, OneSided a states) →
        steadyStateFunction o' k' (o.net.ads.map v) = steadyStateFunction o k (o.net.ads.map v)) := by
  have hs := sameData_of_redirected h.parse h' hd e1 e2 e3
  have hr' : Ready o' total P C :=
    ⟨h', by rw [hs.sites, e1]; exact h.totals, by rw [hs.gas, e2]; exact h.pressures, by
      rw [hs.liq, e3]; exact h.concs⟩
  have hcov : coverage o'.net total v = coverage o.net total v := by
    funext x
    unfold coverage
    rw [hs.ads]
  -- the states of the second model
  have hst : ∀ i (hi : i < o.rxns.length) (hi' : i < o'.rxns.length), ∃ st is fs,
      eqnFormulas o.rxns[i] = .ok st ∧ o.net.rxns[i]? = some st ∧ st.head? = some is ∧ st.getLast? = some fs ∧
      ((o'.rxns[i] = o.rxns[i] ∧ k'.1[i]? = k.1[i]? ∧ k'.2[i]? = k.2[i]?) ∧ o'.net.rxns[i]? = some st ∨
        (eqnRevert o.rxns[i] = .ok o'.rxns[i] ∧ k'.1[i]? = k.2[i]? ∧ k'.2[i]? = k.1[i]?) ∧
          o'.net.rxns[i]? = some st.reverse) := by
    intro i hi hi'
    obtain ⟨st, is, fs, g1, g2, -, g4, g5, -⟩ := states_ok h.parse hi
    obtain ⟨st', is', fs', g1', g2', -⟩ := states_ok h' hi'
    refine ⟨st, is, fs, g1, g2, g4, g5, ?_⟩
    rcases hd.each i hi hi' with e | e
    · left
      refine ⟨e, ?_⟩
      rw [e.1, g1] at g1'
      cases g1'
      exact g2'
    · right
      refine ⟨e, ?_⟩
      rw [eqnFormulas_revert e.1, g1] at g1'
      cases g1'
      exact g2'
  have hl := length_rxns h.parse
  have hl' := length_rxns h'
  have hc' : ∀ states ∈ o'.net.rxns, RateClean states := by
    intro st hm
    obtain ⟨i, hi, rfl⟩ := List.mem_iff_getElem.mp hm
    obtain ⟨st, is, fs, -, g2, -, -, g⟩ := hst i (by rw [← hd.len, ← hl']; exact hi) (by rw [← hl']; exact hi)
    have hcl := clean_at hc g2
    rcases g with ⟨-, g⟩ | ⟨-, g⟩
    · rw [List.getElem?_eq_getElem hi] at g
      rw [Option.some.inj g]; exact hcl
    · rw [List.getElem?_eq_getElem hi] at g
      rw [Option.some.inj g]
      refine ⟨⟨fun fs hfs => hcl.1.1 fs ?_, fun fs hfs => hcl.1.2 fs ?_⟩, fun fs hfs => hcl.2 fs ?_⟩ <;>
      · rw [List.head?_reverse, List.getLast?_reverse] at hfs
        exact hfs.symm
  obtain ⟨rfs, rrs, r1, r2, r3, r4⟩ := getRates_ok h hc v k.1 k.2 κf κr hkf hkr
  obtain ⟨rfs', rrs', s1, s2, s3, s4⟩ := getRates_ok hr' hc' v k'.1 k'.2 κf' κr' hkf' hkr'
  rw [hcov] at s4
  rw [hs.ads] at s1
  -- rates of each reaction
  have hrate : ∀ i (hi : i < o.rxns.length) (hi' : i < o'.rxns.length),
      (o'.rxns[i] = o.rxns[i] → k'.1[i]? = k.1[i]? → k'.2[i]? = k.2[i]? → rfs'[i]? = rfs[i]? ∧ rrs'[i]? = rrs[i]?) ∧
      (eqnRevert o.rxns[i] = .ok o'.rxns[i] → k'.1[i]? = k.2[i]? → k'.2[i]? = k.1[i]? →
        rfs'[i]? = rrs[i]? ∧ rrs'[i]? = rfs[i]?) := by
    intro i hi hi'
    obtain ⟨st, is, fs, g1, -, g4, g5, -⟩ := hst i hi hi'
    obtain ⟨a1, a2⟩ := r4 i hi st is fs g1 g4 g5
    have kf1 := hkf.get i hi
    have kr1 := hkr.get i hi
    have kf2 := hkf'.get i hi'
    have kr2 := hkr'.get i hi'
    constructor
    · intro e q1 q2
      obtain ⟨b1, b2⟩ := s4 i hi' st is fs (by rw [e]; exact g1) g4 g5
      rw [kf1, kf2] at q1
      rw [kr1, kr2] at q2
      rw [a1, a2, b1, b2, Option.some.inj q1, Option.some.inj q2]
      exact ⟨rfl, rfl⟩
    · intro e q1 q2
      obtain ⟨b1, b2⟩ := s4 i hi' st.reverse fs is (by rw [eqnFormulas_revert e, g1]; rfl)
        (by rw [List.head?_reverse]; exact g5) (by rw [List.getLast?_reverse]; exact g4)
      rw [kr1, kf2] at q1
      rw [kf1, kr2] at q2
      rw [a1, a2, b1, b2, Option.some.inj q1, Option.some.inj q2]
      exact ⟨rfl, rfl⟩
  have n1 : getNetRates o k (o.net.ads.map v) = .ok (List.zipWith (· - ·) rfs rrs) := by
    unfold getNetRates
    rw [show getRates o k (o.net.ads.map v) = .ok (rfs, rrs) from r1]; rfl
  have n2 : getNetRates o' k' (o.net.ads.map v) = .ok (List.zipWith (· - ·) rfs' rrs') := by
    unfold getNetRates
    rw [show getRates o' k' (o.net.ads.map v) = .ok (rfs', rrs') from s1]; rfl
  have hprod : ∀ x, production o'.net (List.zipWith (· - ·) rfs' rrs') x
      = production o.net (List.zipWith (· - ·) rfs rrs) x := by
    intro x
    unfold production
    congr 1
    apply List.ext_getElem
    · simp only [List.length_zipWith]
      have := hd.len
      omega
    · intro i i1 i2
      simp only [List.length_zipWith] at i1 i2
      have hi : i < o.rxns.length := by omega
      have hi' : i < o'.rxns.length := by omega
      have j1 : i < rfs.length := by omega
      have j2 : i < rrs.length := by omega
      have j3 : i < rfs'.length := by omega
      have j4 : i < rrs'.length := by omega
      simp only [List.getElem_zipWith]
      obtain ⟨st, is, fs, g1, g2, g4, g5, g⟩ := hst i hi hi'
      rw [List.getElem?_eq_getElem (by omega)] at g2
      obtain ⟨t1, t2⟩ := hrate i hi hi'
      rcases g with ⟨⟨q1, q2, q3⟩, g⟩ | ⟨⟨q1, q2, q3⟩, g⟩
      · obtain ⟨u1, u2⟩ := t1 q1 q2 q3
        rw [List.getElem?_eq_getElem j3, List.getElem?_eq_getElem j1] at u1
        rw [List.getElem?_eq_getElem j4, List.getElem?_eq_getElem j2] at u2
        rw [List.getElem?_eq_getElem (by omega)] at g
        rw [Option.some.inj g, Option.some.inj g2, Option.some.inj u1, Option.some.inj u2]
      · obtain ⟨u1, u2⟩ := t2 q1 q2 q3
        rw [List.getElem?_eq_getElem j3, List.getElem?_eq_getElem j2] at u1
        rw [List.getElem?_eq_getElem j4, List.getElem?_eq_getElem j1] at u2
        rw [List.getElem?_eq_getElem (by omega)] at g
        rw [Option.some.inj g, Option.some.inj g2, Option.some.inj u1, Option.some.inj u2, produced_reverse]
        push_cast
        ring
  refine ⟨hs.ads, hs.gas, hs.liq, rfs, rrs, rfs', rrs', r1, s1, hrate, ?_, ?_⟩
  · rw [(C69_turnover o k _ _ h.parse n1 (by simp [r2, r3])).1,
      (C69_turnover o' k' _ _ h' n2 (by simp [s2, s3])).1, hs.gas, hs.liq]
    congr 1
    apply List.map_congr_left
    intro g _
    exact hprod g
  · intro hone hone'
    obtain ⟨net, d1, -, d3⟩ := C26_derivatives_partial o total P C h hc v k.1 k.2 κf κr hkf hkr hone
    obtain ⟨net', d1', -, d3'⟩ := C26_derivatives_partial o' total P C hr' hc' v k'.1 k'.2 κf' κr' hkf' hkr'
      (by rw [hs.ads]; exact hone')
    rw [hs.ads] at d1' d3'
    rw [show getNetRates o (k.1, k.2) (o.net.ads.map v) = _ from n1] at d1
    rw [show getNetRates o' (k'.1, k'.2) (o.net.ads.map v) = _ from n2] at d1'
    cases d1
    cases d1'
    refine Eq.trans (show steadyStateFunction o' k' (o.net.ads.map v) = _ from d3') ?_
    refine Eq.trans ?_ (show steadyStateFunction o k (o.net.ads.map v) = _ from d3).symm
    congr 1
    apply List.map_congr_left
    intro a _
    exact hprod a

/-- With transition state theory and a table of energies the solver itself exchanges the constants
of the reactions written in the other direction, so `C88_direction_partial` applies to it. -/
theorem C88_constants (E : Dict Str ℝ) (ro : RateOwner) (rxns' : List Str) (r : Rel ℝ) (hT : ro.T ≠ 0)
    (hr : relativeFromAbsolute (some E) ro.rxns = .ok r) (hlen : rxns'.length = ro.rxns.length)
    (hd : ∀ i (h : i < ro.rxns.length) (h' : i < rxns'.length),
      rxns'[i] = ro.rxns[i] ∨ eqnRevert ro.rxns[i] = .ok rxns'[i]) :
    ∃ r' k k', relativeFromAbsolute (some E) rxns' = .ok r' ∧
      rateConstants ro .TST ⟨some r.gaf, some r.gar, some r.dg⟩ = .ok k ∧
      rateConstants { ro with rxns := rxns' } .TST ⟨some r'.gaf, some r'.gar, some r'.dg⟩ = .ok k' ∧
      Redirected ro.rxns rxns' k k' := by
  obtain ⟨-, -, -, hv⟩ := C12_lists E ro.rxns r hr
  have hsingle : ∀ i (hi : i < ro.rxns.length) (hi' : i < rxns'.length), ∃ v w, singleRelative E ro.rxns[i] = .ok v ∧
      singleRelative E rxns'[i] = .ok w ∧ ((rxns'[i] = ro.rxns[i] ∧ w = v) ∨
        (eqnRevert ro.rxns[i] = .ok rxns'[i] ∧ w = ⟨v.gar, v.gaf, -v.dg⟩)) := by
    intro i hi hi'
    obtain ⟨v, e, -⟩ := hv i hi
    rcases hd i hi hi' with q | q
    · exact ⟨v, v, e, by rw [q]; exact e, Or.inl ⟨q, rfl⟩⟩
    · exact ⟨v, _, e, C12_reversal E _ _ v q e, Or.inr ⟨q, rfl⟩⟩
  have hr' : ∃ r', relativeFromAbsolute (some E) rxns' = .ok r' := by
    have : ∃ l', rxns'.mapM (singleRelative E) = .ok l' := by
      apply mapM_ok_exists
      intro x hx
      obtain ⟨i, hi, rfl⟩ := List.mem_iff_getElem.mp hx
      obtain ⟨v, w, -, e, -⟩ := hsingle i (by omega) hi
      exact ⟨w, e⟩
    obtain ⟨l', hl'⟩ := this
    refine ⟨⟨l'.map (·.gaf), l'.map (·.gar), l'.map (·.dg)⟩, ?_⟩
    unfold relativeFromAbsolute
    have : (rxns'.mapM fun r => match some E with
      | none => (.error .AttributeError : Py (Rel1 ℝ))
      | some E => singleRelative E r) = .ok l' := hl'
    rw [this]; rfl
  obtain ⟨r', hr'⟩ := hr'
  have consts : ∀ (ro : RateOwner) (r : Rel ℝ), ro.T ≠ 0 → relativeFromAbsolute (some E) ro.rxns = .ok r →
      ∃ l : List (ℝ × ℝ), rateConstants ro .TST ⟨some r.gaf, some r.gar, some r.dg⟩ = .ok (l.map (·.1), l.map (·.2)) ∧
        l.length = ro.rxns.length ∧ ∀ i (hi : i < ro.rxns.length) v, singleRelative E ro.rxns[i] = .ok v →
          l[i]? = some (kBeV * ro.T / heV * Real.exp (-v.gaf / (kBeV * ro.T)),
            kBeV * ro.T / heV * Real.exp (-v.gar / (kBeV * ro.T))) := by
    intro ro r hT hr
    have hval : ∀ rxn ∈ ro.rxns, ∀ v, singleRelative E rxn = .ok v →
        ratesTST ro ⟨some r.gaf, some r.gar, some r.dg⟩ false rxn
          = .ok (kBeV * ro.T / heV * Real.exp (-v.gaf / (kBeV * ro.T)),
            kBeV * ro.T / heV * Real.exp (-v.gar / (kBeV * ro.T))) := by
      intro rxn hx v hv
      exact ratesTST_ok.mpr ⟨v, by rw [relOf_text hr hx]; exact hv, (kTST_ok hT).mpr rfl, (kTST_ok hT).mpr rfl⟩
    obtain ⟨-, -, -, hv⟩ := C12_lists E ro.rxns r hr
    obtain ⟨l, hl⟩ : ∃ l, ro.rxns.mapM (ratesTST ro ⟨some r.gaf, some r.gar, some r.dg⟩ false) = .ok l := by
      apply mapM_ok_exists
      intro rxn hx
      obtain ⟨i, hi, rfl⟩ := List.mem_iff_getElem.mp hx
      obtain ⟨v, e, -⟩ := hv i hi
      exact ⟨_, hval _ hx v e⟩
    obtain ⟨m1, m2⟩ := mapM_ok_inv hl
    refine ⟨l, ?_, m1, ?_⟩
    · unfold rateConstants
      rw [if_neg (by simp)]
      simp only [hl, bind, Except.bind]
      rfl
    · intro i hi v e
      have := m2 i hi (by omega)
      rw [hval _ (List.getElem_mem hi) v e] at this
      rw [List.getElem?_eq_getElem (by omega), ← Except.ok.inj this]
  obtain ⟨l, a1, a2, a3⟩ := consts ro r hT hr
  obtain ⟨l', b1, b2, b3⟩ := consts { ro with rxns := rxns' } r' hT hr'
  refine ⟨r', _, _, hr', a1, b1, ⟨hlen, ?_⟩⟩
  intro i hi hi'
  obtain ⟨v, w, e1, e2, e⟩ := hsingle i hi hi'
  have u := a3 i hi v e1
  have u' := b3 i hi' w e2
  dsimp only at u'
  rcases e with ⟨q, rfl⟩ | ⟨q, rfl⟩
  · left
    simp only [List.getElem?_map, u, u', Option.map_some]
    exact ⟨q, trivial, trivial⟩
  · right
    simp only [List.getElem?_map, u, u', Option.map_some]
    exact ⟨q, trivial, trivial⟩

/-- CO oxidation with the adsorption of oxygen written as desorption. -/
def exTurned : List Str :=
  [str! "CO_g + *_s -> CO_s", str! "2O_s -> O2_g + 2*_s", str! "CO_s + O_s <-> CO-O_2s -> CO2_g + 2*_s"]

example : ∃ o' : MFOwner ℚ, o'.rxns = exTurned ∧ parseNetwork o'.rxns = .ok o'.net ∧
    Redirected exMF.rxns o'.rxns (([2, 3, 5], [7, 11, 13]) : List ℚ × List ℚ) ([2, 11, 5], [7, 3, 13]) ∧
    (∀ a ∈ exMF.net.ads, ∀ states ∈ o'.net.rxns, OneSided a states) ∧
    steadyStateFunction o' ([2, 11, 5], [7, 3, 13]) [1 / 4, 1 / 4]
      = steadyStateFunction exMF ([2, 3, 5], [7, 11, 13]) [1 / 4, 1 / 4] := by
  refine ⟨⟨exTurned, netOf exTurned, exMF.totals, exMF.pressures, []⟩, rfl, by decide, ⟨by decide, ?_⟩,
    fun a ha st hst => oneSided_of
      ((by decide : ∀ a ∈ exMF.net.ads, ∀ st ∈ (netOf exTurned).rxns, oneSidedB a st = true) a ha st hst),
    by decide +kernel⟩
  intro i h1 h2
  match i, h1 with
  | 0, _ => exact Or.inl ⟨by decide +revert, rfl, rfl⟩
  | 1, _ => exact Or.inr ⟨by decide +revert, rfl, rfl⟩
  | 2, _ => exact Or.inl ⟨by decide +revert, rfl, rfl⟩
  | n + 3, h => exact absurd h (by have : exMF.rxns.length = 3 := by decide
                                   omega)

noncomputable def exTurnedE : Dict Str ℝ :=
  [(str! "CO_g", 0), (str! "O2_g", 0), (str! "CO2_g", -3), (str! "*_s", 0), (str! "CO_s", -1), (str! "O_s", -1),
    (str! "CO-O_2s", -1)]

example : ∃ r r' k k', relativeFromAbsolute (some exTurnedE) exRxns = .ok r ∧
    relativeFromAbsolute (some exTurnedE) exTurned = .ok r' ∧
    rateConstants ⟨exRxns, 450, [], 0, 0, false⟩ .TST ⟨some r.gaf, some r.gar, some r.dg⟩ = .ok k ∧
    rateConstants ⟨exTurned, 450, [], 0, 0, false⟩ .TST ⟨some r'.gaf, some r'.gar, some r'.dg⟩ = .ok k' ∧
    Redirected exRxns exTurned k k' := by
  obtain ⟨r, hr⟩ := (C12_complete_tables exTurnedE exRxns exNet exNet_ok).1 (by
    have hk : keys exTurnedE = [str! "CO_g", str! "O2_g", str! "CO2_g", str! "*_s", str! "CO_s", str! "O_s",
      str! "CO-O_2s"] := rfl
    rw [hk]
    decide)
  obtain ⟨r', k, k', h1, h2, h3, h4⟩ := C88_constants exTurnedE ⟨exRxns, 450, [], 0, 0, false⟩ exTurned r (by norm_num)
    hr (by decide) (by
      intro i h1 h2
      match i, h1 with
      | 0, _ => exact Or.inl (by decide +revert)
      | 1, _ => exact Or.inr (by decide +revert)
      | 2, _ => exact Or.inl (by decide +revert)
      | n + 3, h => exact absurd h2 (by have : exTurned.length = 3 := by decide
                                        omega))
  exact ⟨r, r', k, k', hr, h1, h2, h3, h4⟩

/-- A species on both sides is consumed whichever way the reaction is written. -/
theorem C88_both_sides_refuted :
    let rxns := [str! "H_s + CO_s -> H_s + OC_s"]
    let rxns' := [str! "H_s + OC_s -> H_s + CO_s"]
    let o : MFOwner ℚ := ⟨rxns, netOf rxns, [(str! "*_s", 1)], [], []⟩
    let o' : MFOwner ℚ := ⟨rxns', netOf rxns', [(str! "*_s", 1)], [], []⟩
    parseNetwork rxns = .ok o.net ∧ parseNetwork rxns' = .ok o'.net ∧
      Redirected rxns rxns' (([1], [2]) : List ℚ × List ℚ) ([2], [1]) ∧
      steadyStateFunction o ([1], [2]) [1 / 4, 1 / 4, 1 / 4] = .ok [1 / 16, 1 / 16, -1 / 16] ∧
      steadyStateFunction o' ([2], [1]) [1 / 4, 1 / 4, 1 / 4] = .ok [1 / 16, -1 / 16, -1 / 16] := by
  refine ⟨by decide, by decide, ⟨rfl, ?_⟩, by decide +kernel, by decide +kernel⟩
  intro i h1 h2
  match i, h1 with
  | 0, _ => exact Or.inr ⟨by decide +revert, rfl, rfl⟩
  | n + 1, h => simp at h

/-- Collision theory has a preferred direction. For the adsorption of carbon monoxide written
forwards the constant of adsorption is proportional to the area of the unit cell; written backwards
the constant of the same adsorption does not depend on it. -/
theorem C88_collision_refuted :
    ∃ (area rf rr rf' rr' : ℝ), eqnRevert (str! "CO_g + *_s -> CO_s") = .ok (str! "CO_s -> CO_g + *_s") ∧ 0 < area ∧
      ratesCT ⟨[str! "CO_g + *_s -> CO_s"], 450, [], area, 1 / 2, true⟩ ⟨some [0], some [2], some [-2]⟩ false
        (str! "CO_g + *_s -> CO_s") = .ok (rf, rr) ∧
      ratesCT ⟨[str! "CO_s -> CO_g + *_s"], 450, [], area, 1 / 2, true⟩ ⟨some [2], some [0], some [2]⟩ false
        (str! "CO_s -> CO_g + *_s") = .ok (rf', rr') ∧
      ¬ (rf' = rr ∧ rr' = rf) := by
  have hm : (0 : ℝ) < amu * ((280101 / 10000 : ℚ) : ℝ) := by
    have := amu_pos
    have h2 : (0 : ℝ) < ((280101 / 10000 : ℚ) : ℝ) := by norm_num
    positivity
  obtain ⟨c, hc⟩ := C67_defined_partial db_CO [] 450 P0 (by norm_num) P0_pos (by
    intro _ t ht; simp only [List.mem_singleton] at ht; subst ht; norm_num)
  have hrel : relOf [str! "CO_g + *_s -> CO_s"] ⟨some [0], some [2], some [-2]⟩ (str! "CO_g + *_s -> CO_s")
      = .ok (⟨0, 2, -2⟩ : Rel1 ℝ) := relOf_ok.mpr ⟨by simp, _, _, _, rfl, rfl, rfl, by simp⟩
  have hrel' : relOf [str! "CO_s -> CO_g + *_s"] ⟨some [2], some [0], some [2]⟩ (str! "CO_s -> CO_g + *_s")
      = .ok (⟨2, 0, 2⟩ : Rel1 ℝ) := relOf_ok.mpr ⟨by simp, _, _, _, rfl, rfl, rfl, by simp⟩
  have fwd : ∀ A : ℝ, 0 < A → ∃ k rr, kCT 0 A (1 / 2) (amu * ((280101 / 10000 : ℚ) : ℝ)) 450 P0 1 = .ok k ∧ 0 < k ∧
      ratesCT ⟨[str! "CO_g + *_s -> CO_s"], 450, [], A, 1 / 2, true⟩ ⟨some [0], some [2], some [-2]⟩ false
        (str! "CO_g + *_s -> CO_s") = .ok (k, rr) := by
    intro A hA
    obtain ⟨k, hk, kp, -⟩ := C20_bounded 0 A (1 / 2) (amu * ((280101 / 10000 : ℚ) : ℝ)) 450 P0 1
      hA (by norm_num) (by norm_num) hm (by norm_num) P0_pos (by norm_num) (by norm_num)
    obtain ⟨g, hg, -⟩ := C19_rate_of_barrier k 450 kp (by norm_num)
    unfold ratesCT
    rw [show eqnFormulas (str! "CO_g + *_s -> CO_s") = .ok
      [[fCO, ⟨str! "*_s", 1, str! "*", 1, str! "s", str! "*_s"⟩],
       [⟨str! "CO_s", 1, str! "CO", 1, str! "s", str! "CO_s"⟩]] by decide, hrel]
    simp only [bind, Except.bind, List.head?_cons, List.getLast?_cons_cons, List.getLast?_singleton]
    rw [show List.find? (fun x : Formula => decide (x.type = .gas))
      [fCO, ⟨str! "*_s", 1, str! "*", 1, str! "s", str! "*_s"⟩] = some fCO by decide]
    simp only [db_CO.mass]
    rw [if_neg (not_not.mpr hA)]
    simp only [pure, Except.pure, if_false, pressureCT, Bool.false_eq_true, hk, hg,
      show entropyCorrection [] 450 (some P0) fCO.text = .ok c from hc]
    rw [if_neg (by simp), (kTST_ok (by norm_num)).mpr rfl]
    exact ⟨_, _, rfl, kp, rfl⟩
  have bwd : ∃ x y, ∀ A : ℝ, 0 < A →
      ratesCT ⟨[str! "CO_s -> CO_g + *_s"], 450, [], A, 1 / 2, true⟩ ⟨some [2], some [0], some [2]⟩ false
        (str! "CO_s -> CO_g + *_s") = .ok (x, y) := by
    refine ⟨kBeV * 450 / heV * Real.exp (-2 / (kBeV * 450)),
      kBeV * 450 / heV * Real.exp (-(0 - (fCO.stoich : ℝ) * c) / (kBeV * 450)), ?_⟩
    intro A hA
    unfold ratesCT
    rw [show eqnFormulas (str! "CO_s -> CO_g + *_s") = .ok
      [[⟨str! "CO_s", 1, str! "CO", 1, str! "s", str! "CO_s"⟩],
       [fCO, ⟨str! "*_s", 1, str! "*", 1, str! "s", str! "*_s"⟩]] by decide, hrel']
    simp only [bind, Except.bind, List.head?_cons, List.getLast?_cons_cons, List.getLast?_singleton]
    rw [show List.find? (fun x : Formula => decide (x.type = .gas))
      [⟨str! "CO_s", 1, str! "CO", 1, str! "s", str! "CO_s"⟩] = none by decide]
    dsimp only
    rw [show List.find? (fun x : Formula => decide (x.type = .gas))
      [fCO, ⟨str! "*_s", 1, str! "*", 1, str! "s", str! "*_s"⟩] = some fCO by decide]
    simp only [db_CO.mass]
    rw [if_neg (not_not.mpr hA)]
    simp only [pure, Except.pure, if_false, pressureCT, Bool.false_eq_true,
      show entropyCorrection [] 450 (some P0) fCO.text = .ok c from hc]
    rw [if_neg (by simp), (kTST_ok (by norm_num)).mpr rfl, (kTST_ok (by norm_num)).mpr rfl]
  obtain ⟨x, y, hb⟩ := bwd
  obtain ⟨k1, r1, e1, p1, f1⟩ := fwd 1 one_pos
  obtain ⟨k2, r2, e2, p2, f2⟩ := fwd 2 two_pos
  have hk : k2 = 2 * k1 := by
    unfold kCT at e1 e2
    rw [if_neg (by norm_num), if_neg (by norm_num), if_neg (by norm_num)] at e1 e2
    dsimp only at e1 e2
    split at e1
    · cases e1
    · split at e1
      · cases e1
      · rename_i g1 g2
        rw [if_neg g1, if_neg g2] at e2
        rw [← Except.ok.inj e1, ← Except.ok.inj e2]
        ring
  by_cases hy : y = k1
  · exact ⟨2, k2, r2, x, y, by decide, two_pos, f2, hb 2 two_pos, fun h => by
      have := h.2
      linarith⟩
  · exact ⟨1, k1, r1, x, y, by decide, one_pos, f1, hb 1 one_pos, fun h => hy h.2⟩

/-! ## C89 scaling of the rate constants -/

/-- All rate constants multiplied by the same number. -/
def scaleK (c : K) (k : List K × List K) : List K × List K := (k.1.map (c * ·), k.2.map (c * ·))

theorem mapM_mapped {α β γ : Type} (f : α → Py β) (g : β → γ) (l : List α) :
    l.mapM (fun x => (f x).map g) = (l.mapM f).map (List.map g) := by
  induction l with
  | nil => rfl
  | cons a l ih =>
    rw [List.mapM_cons, List.mapM_cons, ih]
    cases f a with
    | error e => rfl
    | ok b =>
      cases l.mapM f with
      | error e => rfl
      | ok bs => rfl

theorem evalFactor_env (env env' : Env K) (h1 : env'.theta = env.theta) (h2 : env'.p = env.p) (h3 : env'.c = env.c)
    (f : Factor) : evalFactor env' f = evalFactor env f := by
  unfold evalFactor
  rw [h1, h2, h3]

theorem evalTerm_scale (c : K) (env env' : Env K) (h1 : env'.theta = env.theta) (h2 : env'.p = env.p)
    (h3 : env'.c = env.c) (h4 : env'.kf = env.kf.map (c * ·)) (h5 : env'.kr = env.kr.map (c * ·)) (t : Term) :
    evalTerm env' t = (evalTerm env t).map (c * ·) := by
  have hf : evalFactor env' = evalFactor env := funext (evalFactor_env env env' h1 h2 h3)
  have hk : (if t.fwd then env'.kf else env'.kr)[t.idx]? = ((if t.fwd then env.kf else env.kr)[t.idx]?).map (c * ·) := by
    cases t.fwd <;> simp [h4, h5]
  unfold evalTerm
  rw [hf, hk]
  cases (if t.fwd then env.kf else env.kr)[t.idx]? with
  | none => rfl
  | some k =>
    cases t.factors.mapM (evalFactor env) with
    | error e => rfl
    | ok xs =>
      simp only [Option.map_some, bind, Except.bind, pure, Except.pure, Except.map]
      congr 1
      ring

theorem mkEnv_scale (o : MFOwner K) (c : K) (k : List K × List K) (cvgs : List K) :
    mkEnv o (scaleK c k) cvgs
      = (mkEnv o k cvgs).map fun e => { e with kf := e.kf.map (c * ·), kr := e.kr.map (c * ·) } := by
  unfold mkEnv
  cases cvgTuple2Dict o cvgs with
  | error e => rfl
  | ok d =>
    cases getData o with
    | error e => rfl
    | ok q => rfl

/-- Multiplying all rate constants by a number multiplies all rates by it, whatever the network;
failures stay the same. -/
theorem C89_rates (o : MFOwner K) (c : K) (k : List K × List K) (cvgs : List K) :
    getRates o (scaleK c k) cvgs = (getRates o k cvgs).map (fun r => (r.1.map (c * ·), r.2.map (c * ·))) ∧
    getNetRates o (scaleK c k) cvgs = (getNetRates o k cvgs).map (List.map (c * ·)) := by
  have h1 : getRates o (scaleK c k) cvgs
      = (getRates o k cvgs).map (fun r => (r.1.map (c * ·), r.2.map (c * ·))) := by
    unfold getRates
    rw [mkEnv_scale]
    cases mkEnv o k cvgs with
    | error e => rfl
    | ok env =>
      simp only [Except.map, bind, Except.bind]
      cases o.rxns.mapM (rateTerms o) with
      | error e => rfl
      | ok ts =>
        simp only
        have he := fun t => evalTerm_scale c env { env with kf := env.kf.map (c * ·), kr := env.kr.map (c * ·) }
          rfl rfl rfl rfl rfl t
        simp only [he]
        rw [mapM_mapped (fun t : Term × Term => evalTerm env t.1), mapM_mapped (fun t : Term × Term => evalTerm env t.2)]
        cases ts.mapM (fun t : Term × Term => evalTerm env t.1) with
        | error e => rfl
        | ok x =>
          cases ts.mapM (fun t : Term × Term => evalTerm env t.2) with
          | error e => rfl
          | ok y => rfl
  refine ⟨h1, ?_⟩
  unfold getNetRates
  rw [h1]
  cases getRates o k cvgs with
  | error e => rfl
  | ok r =>
    simp only [Except.map, bind, Except.bind, pure, Except.pure]
    congr 1
    rw [List.zipWith_map, List.map_zipWith]
    simp only [mul_sub]

theorem rowTimes_scale (n : Nat) (c : K) (v : List K) (M : List (List K)) :
    rowTimes n (v.map (c * ·)) M = (rowTimes n v M).map (c * ·) := by
  induction v generalizing M with
  | nil => simp [rowTimes]
  | cons x v ih =>
    cases M with
    | nil => simp [rowTimes]
    | cons row M =>
      rw [List.map_cons, rowTimes, rowTimes, ih, List.zipWith_map_right, List.map_zipWith]
      congr 1
      funext r s
      ring

/-- The same holds for the turnover frequencies. -/
theorem C89_turnover (o : MFOwner K) (c : K) (k : List K × List K) (cvgs : List K) :
    getTof o (scaleK c k) cvgs = (getTof o k cvgs).map (List.map (c * ·)) := by
  unfold getTof
  rw [(C89_rates o c k cvgs).2]
  cases getNetRates o k cvgs with
  | error e => rfl
  | ok net =>
    simp only [Except.map, bind, Except.bind]
    cases o.net.stoichMatrices with
    | error e => rfl
    | ok m => simp only [pure, Except.pure, rowTimes_scale]

theorem evalPoly_scale (c : K) (env env' : Env K) (h : ∀ t, evalTerm env' t = (evalTerm env t).map (c * ·))
    (q : Poly) : evalPoly env' q = (evalPoly env q).map (c * ·) := by
  rw [evalPoly_signed, evalPoly_signed]
  have hs : signedTerm env' = fun t => (signedTerm env t).map (c * ·) := by
    funext t
    unfold signedTerm
    rw [h]
    cases evalTerm env t.2 with
    | error e => rfl
    | ok x => cases t.1 <;> simp [Except.map, bind, Except.bind, pure, Except.pure]
  rw [hs, mapM_mapped]
  cases q.mapM (signedTerm env) with
  | error e => rfl
  | ok xs =>
    have := sum_map_mul_left' xs c (fun x => x)
    simpa [Except.map] using this

/-- And for the coverage derivatives; so a change of the unit of time changes no steady state. -/
theorem C89_derivatives (o : MFOwner K) (c : K) (k : List K × List K) (cvgs : List K) :
    steadyStateFunction o (scaleK c k) cvgs = (steadyStateFunction o k cvgs).map (List.map (c * ·)) ∧
    (c ≠ 0 → ((∃ d, steadyStateFunction o (scaleK c k) cvgs = .ok d ∧ ∀ x ∈ d, x = 0) ↔
      ∃ d, steadyStateFunction o k cvgs = .ok d ∧ ∀ x ∈ d, x = 0)) := by
  have h1 : steadyStateFunction o (scaleK c k) cvgs = (steadyStateFunction o k cvgs).map (List.map (c * ·)) := by
    unfold steadyStateFunction
    rw [mkEnv_scale]
    cases mkEnv o k cvgs with
    | error e => rfl
    | ok env =>
      simp only [Except.map, bind, Except.bind]
      cases o.net.ads.mapM (adsorbateDtheta o) with
      | error e => rfl
      | ok qs =>
        have he := fun t => evalTerm_scale c env { env with kf := env.kf.map (c * ·), kr := env.kr.map (c * ·) }
          rfl rfl rfl rfl rfl t
        simp only
        rw [show (qs.mapM (evalPoly { env with kf := env.kf.map (c * ·), kr := env.kr.map (c * ·) }))
          = qs.mapM (fun q => (evalPoly env q).map (c * ·)) from
            congrArg (fun f => qs.mapM f) (funext fun q => evalPoly_scale c env _ he q), mapM_mapped]
        rfl
  refine ⟨h1, fun hc => ?_⟩
  rw [h1]
  cases steadyStateFunction o k cvgs with
  | error e =>
    constructor <;> rintro ⟨d, h, -⟩ <;> cases h
  | ok d =>
    constructor
    · rintro ⟨d', h, hz⟩
      cases h
      refine ⟨d, rfl, fun x hx => ?_⟩
      have := hz (c * x) (List.mem_map.mpr ⟨x, hx, rfl⟩)
      exact (mul_eq_zero.mp this).resolve_left hc
    · rintro ⟨d', h, hz⟩
      cases h
      refine ⟨_, rfl, fun y hy => ?_⟩
      obtain ⟨x, hx, rfl⟩ := List.mem_map.mp hy
      rw [hz x hx, mul_zero]

/-- CO oxidation with all constants multiplied by 60. -/
example : steadyStateFunction exMF ([2, 3, 5], [7, 11, 13]) [1 / 4, 1 / 4] = .ok [-37/32, -29/32] ∧
    steadyStateFunction exMF (scaleK 60 ([2, 3, 5], [7, 11, 13])) [1 / 4, 1 / 4] = .ok [60 * (-37/32), 60 * (-29/32)] := by
  decide +kernel

end Verif
