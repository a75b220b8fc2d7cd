import Verif.Model.Symbolic
import Verif.Props.MeanField
/-
Lemmas on the symbolic expressions.
-/
namespace Verif
open Dict
set_option linter.unusedSectionVars false
variable {K : Type} [Field K] [DecidableEq K]

/-! ## dictionaries -/

theorem get?_zipDict_aux (l : List (Symb × K)) (d : Dict Symb K) (k : Symb) :
    get? (l.foldl (fun d x => symSetDefault d x.1 x.2) d) k = match get? d k with
      | some v => some v
      | none => get? l k := by
  induction l generalizing d with
  | nil => cases h : get? d k <;> simp [h, get?]
  | cons a l ih =>
    rw [List.foldl_cons, ih]
    obtain ⟨a, w⟩ := a
    unfold symSetDefault
    dsimp only
    cases h : get? d a with
    | some u =>
      dsimp only
      cases h' : get? d k with
      | some _ => rfl
      | none =>
        simp only [get?]
        rw [if_neg]
        rintro rfl
        rw [h] at h'; cases h'
    | none =>
      dsimp only
      rw [get?_set]
      by_cases e : a = k
      · subst e; simp [h, get?]
      · rw [if_neg e]; simp only [get?]; rw [if_neg e]

theorem get?_zipDict (ks : List Symb) (vs : List K) (k : Symb) :
    get? (zipDict ks vs) k = get? (ks.zip vs) k := by
  unfold zipDict
  rw [get?_zipDict_aux]
  rfl

theorem nodup_zipDict (ks : List Symb) (vs : List K) : (keys (zipDict ks vs)).Nodup := by
  unfold zipDict
  suffices ∀ (l : List (Symb × K)) (d : Dict Symb K), (keys d).Nodup → (keys (l.foldl (fun d x => symSetDefault d x.1 x.2) d)).Nodup by
    exact this _ _ (by simp [keys])
  intro l
  induction l with
  | nil => intro d hd; exact hd
  | cons a l ih =>
    intro d hd
    rw [List.foldl_cons]
    apply ih
    unfold symSetDefault
    split
    · exact hd
    · exact nodup_set hd

theorem get?_mergeDicts (a b : Dict Symb K) (hb : (keys b).Nodup) (k : Symb) :
    get? (mergeDicts a b) k = match get? b k with
      | some v => some v
      | none => get? a k := by
  unfold mergeDicts
  induction b generalizing a with
  | nil => rfl
  | cons e b ih =>
    obtain ⟨j, w⟩ := e
    simp only [keys, List.map_cons, List.nodup_cons] at hb
    rw [List.foldl_cons, ih _ hb.2, get?_set]
    simp only [get?]
    by_cases h : j = k
    · subst h
      rw [if_pos rfl, if_pos rfl, get?_eq_none.mpr hb.1]
    · rw [if_neg h, if_neg h]

theorem get?_map_key {α : Type} [DecidableEq α] (c : α → Symb) (hc : Function.Injective c) (v : α → K) (l : List α) (y : α) :
    get? (l.map fun x => (c x, v x)) (c y) = if y ∈ l then some (v y) else none := by
  induction l with
  | nil => simp [get?]
  | cons a l ih =>
    simp only [List.map_cons, get?, ih]
    by_cases e : a = y
    · subst e; simp
    · rw [if_neg (fun h => e (hc h))]
      simp [Ne.symm e]

theorem get?_map_other {α : Type} (c : α → Symb) (v : α → K) (l : List α) (t : Symb) (h : ∀ x, c x ≠ t) :
    get? (l.map fun x => (c x, v x)) t = none := by
  rw [get?_eq_none]
  simp [keys, h]

theorem zip_getElem? (m : Nat) (c : Nat → Symb) (vs : List K) (A : Nat → K) (h : ∀ i < m, vs[i]? = some (A i)) :
    ((List.range m).map c).zip vs = (List.range m).map fun i => (c i, A i) := by
  have hm : m ≤ vs.length := by
    cases m with
    | zero => simp
    | succ m => exact (List.getElem?_eq_some_iff.mp (h m (by omega))).1
  apply List.ext_getElem
  · simpa using hm
  · intro i h1 h2
    have h3 : i < m := by simpa using h2
    obtain ⟨h4, h5⟩ := List.getElem?_eq_some_iff.mp (h i h3)
    simp [h5]

/-! ## evaluation -/

/-- The values of the symbols. -/
def symVal (n : Network) (m : Nat) (kB h T : K) (P : Str → K) (θ : Str → Option K) (A D : Nat → K) : Symb → Option K
  | .p g => if g ∈ n.gas then some (P g) else none
  | .c _ => none
  | .theta a => θ a
  | .ga i => if i < m then some (A i) else none
  | .dg i => if i < m then some (D i) else none
  | .kB => some kB
  | .h => some h
  | .T => some T

theorem evalSym_congr (ex : K → K) {d d' : Dict Symb K} (h : ∀ t, get? d t = get? d' t) (e : SymExpr K) :
    evalSym ex d e = evalSym ex d' e := by
  induction e with
  | num => rfl
  | sym t => simp only [evalSym, h]
  | add a b iha ihb => simp only [evalSym, iha, ihb]
  | sub a b iha ihb => simp only [evalSym, iha, ihb]
  | mul a b iha ihb => simp only [evalSym, iha, ihb]
  | div a b iha ihb => simp only [evalSym, iha, ihb]
  | pow a n iha => simp only [evalSym, iha]
  | exp a iha => simp only [evalSym, iha]

theorem getData_ok {o : MFOwner K} {total P C : Str → K} (h : Ready o total P C) :
    getData o = .ok (o.net.gas.map (fun g => (g, P g)), o.net.liq.map (fun g => (g, C g))) := by
  unfold getData
  rw [mapM_pair h.pressures, mapM_pair h.concs]
  rfl

/-- The expression of a free site. -/
def freeExpr (n : Network) (total : Str → K) (s : Str) : SymExpr K :=
  ((n.ads.filter (fun a => OnSite a s)).map fun a => SymExpr.sym (.theta a)).foldl .sub (.num (total s))

theorem getDataSymbols_ok {s : SymSolver K} {total P C : Str → K} (h : Ready s.o total P C) :
    getDataSymbols s = .ok { s with free := some (s.o.net.sites.map (freeExpr s.o.net total)) } := by
  obtain ⟨cls, hc1, hc2⟩ := classifyAds_ok h.parse
  unfold getDataSymbols
  rw [hc1]
  have : s.o.net.sites.mapM (freeSiteSym s.o cls) = .ok (s.o.net.sites.map (freeExpr s.o.net total)) := by
    apply mapM_ok_map
    intro t ht
    unfold freeSiteSym
    have he : (s.o.net.ads.filter (fun a => OnSite a t)).mapM (extractAds (K := K) s.o.net)
        = .ok ((s.o.net.ads.filter (fun a => OnSite a t)).map fun a => SymExpr.sym (.theta a)) := by
      apply mapM_ok_map
      intro a ha
      unfold extractAds
      rw [if_pos (List.mem_filter.mp ha).1]
    rw [dictGet_ok.mpr (h.totals t ht), dictGet_ok.mpr (by rw [hc2, if_pos ht])]
    simp only [bind, Except.bind, he]
    rfl
  simp only [bind, Except.bind, this]
  rfl

/-- A solver whose symbols and data have been made, for a network without liquids. -/
structure SymOk (s : SymSolver K) (total P C : Str → K) (A D : Nat → K) : Prop where
  ready : Ready s.o total P C
  free : s.free = some (s.o.net.sites.map (freeExpr s.o.net total))
  data : ∃ c, s.data = some (s.o.net.gas.map (fun g => (g, P g)), c)
  gaf : ∃ l, s.gaf = some l ∧ ∀ i < s.o.rxns.length, l[i]? = some (A i)
  dg : ∃ l, s.dg = some l ∧ ∀ i < s.o.rxns.length, l[i]? = some (D i)
  liq : s.o.net.liq = []
  star : ∀ a ∈ s.o.net.ads, '*' ∉ a
  clean : ∀ states ∈ s.o.net.rxns, RateClean states
  kT : s.kB * s.T ≠ 0
  hne : s.h ≠ 0

/-- The dictionary has the values of the symbols, with given values of the coverages. -/
def SubsVal (s : SymSolver K) (P : Str → K) (θ : Str → Option K) (A D : Nat → K) (d : Dict Symb K) : Prop :=
  ∀ t, get? d t = symVal s.o.net s.o.rxns.length s.kB s.h s.T P θ A D t

/-- The values for a coverage tuple. -/
def SubsOk (s : SymSolver K) (P v : Str → K) (A D : Nat → K) (d : Dict Symb K) : Prop :=
  SubsVal s P (fun a => if a ∈ s.o.net.ads then some (v a) else none) A D d

theorem get?_zip_other {α : Type} (c : α → Symb) (l : List α) (vs : List K) (t : Symb) (h : ∀ x, c x ≠ t) :
    get? ((l.map c).zip vs) t = none := by
  rw [get?_eq_none]
  intro hm
  unfold keys at hm
  obtain ⟨x, hx, rfl⟩ := List.mem_map.mp hm
  obtain ⟨a, -, ha⟩ := List.mem_map.mp (List.of_mem_zip hx).1
  exact h a ha

theorem subs_val {s : SymSolver K} {total P C : Str → K} {A D : Nat → K} (h : SymOk s total P C A D) (cvgs : List K) :
    ∃ d, getSubsDict s cvgs = .ok d ∧
      SubsVal s P (fun a => get? ((s.o.net.ads.map Symb.theta).zip cvgs) (Symb.theta a)) A D d := by
  obtain ⟨gaf, g1, g2⟩ := h.gaf
  obtain ⟨dg, d1, d2⟩ := h.dg
  obtain ⟨c, hd⟩ := h.data
  have hp : dataSubs s = .ok (zipDict (s.o.net.gas.map .p) (s.o.net.gas.map P)) := by
    unfold dataSubs
    rw [hd]
    dsimp only
    rw [mapM_dictGet (v := P) (fun x hx => get?_map_pair hx)]
    simp [bind, Except.bind, h.liq, pure, Except.pure]
  refine ⟨mergeDicts (mergeDicts (mergeDicts (mergeDicts (zipDict ((List.range s.o.rxns.length).map .ga) gaf)
    (zipDict ((List.range s.o.rxns.length).map .dg) dg)) (zipDict (s.o.net.ads.map .theta) cvgs))
    (zipDict [.kB, .h, .T] [s.kB, s.h, s.T])) (zipDict (s.o.net.gas.map .p) (s.o.net.gas.map P)), ?_, ?_⟩
  · unfold getSubsDict
    simp only [h.free, g1, d1, hp, relKey, bind, Except.bind]
    rfl
  · intro t
    rw [get?_mergeDicts _ _ (nodup_zipDict _ _), get?_mergeDicts _ _ (nodup_zipDict _ _),
      get?_mergeDicts _ _ (nodup_zipDict _ _), get?_mergeDicts _ _ (nodup_zipDict _ _)]
    simp only [get?_zipDict]
    rw [zip_getElem? _ _ _ _ g2, zip_getElem? _ _ _ _ d2, List.zip_map']
    have i1 : Function.Injective Symb.p := fun _ _ h => Symb.p.inj h
    have i2 : Function.Injective Symb.theta := fun _ _ h => Symb.theta.inj h
    have i3 : Function.Injective Symb.ga := fun _ _ h => Symb.ga.inj h
    have i4 : Function.Injective Symb.dg := fun _ _ h => Symb.dg.inj h
    cases t with
    | p g =>
      rw [get?_map_key _ i1, get?_zip_other .theta _ _ _ (by intro x; simp), get?_map_other .ga _ _ _ (by intro x; simp),
        get?_map_other .dg _ _ _ (by intro x; simp)]
      simp only [symVal]
      by_cases hm : g ∈ s.o.net.gas <;> simp [hm, get?]
    | c g =>
      rw [get?_map_other .p _ _ _ (by intro x; simp), get?_zip_other .theta _ _ _ (by intro x; simp), get?_map_other .ga _ _ _ (by intro x; simp),
        get?_map_other .dg _ _ _ (by intro x; simp)]
      simp [symVal, get?]
    | theta a =>
      rw [get?_map_other .p _ _ _ (by intro x; simp), get?_map_other .ga _ _ _ (by intro x; simp),
        get?_map_other .dg _ _ _ (by intro x; simp)]
      simp only [symVal]
      cases get? ((s.o.net.ads.map Symb.theta).zip cvgs) (Symb.theta a) <;> simp [get?]
    | ga i =>
      rw [get?_map_other .p _ _ _ (by intro x; simp), get?_zip_other .theta _ _ _ (by intro x; simp), get?_map_key _ i3,
        get?_map_other .dg _ _ _ (by intro x; simp)]
      simp only [symVal]
      by_cases hm : i < s.o.rxns.length <;> simp [hm, get?]
    | dg i =>
      rw [get?_map_other .p _ _ _ (by intro x; simp), get?_zip_other .theta _ _ _ (by intro x; simp), get?_map_other .ga _ _ _ (by intro x; simp),
        get?_map_key _ i4]
      simp only [symVal]
      by_cases hm : i < s.o.rxns.length <;> simp [hm, get?]
    | kB => rw [get?_map_other .p _ _ _ (by intro x; simp)]; simp [symVal, get?]
    | h => rw [get?_map_other .p _ _ _ (by intro x; simp)]; simp [symVal, get?]
    | T => rw [get?_map_other .p _ _ _ (by intro x; simp)]; simp [symVal, get?]

theorem subs_ok {s : SymSolver K} {total P C : Str → K} {A D : Nat → K} (h : SymOk s total P C A D) (v : Str → K) :
    ∃ d, getSubsDict s (s.o.net.ads.map v) = .ok d ∧ SubsOk s P v A D d := by
  obtain ⟨d, h1, h2⟩ := subs_val h (s.o.net.ads.map v)
  refine ⟨d, h1, ?_⟩
  rw [List.zip_map'] at h2
  simp only [get?_map_key Symb.theta (fun _ _ h => Symb.theta.inj h)] at h2
  unfold SubsOk; convert h2

/-- The rate constant for a barrier. -/
def kappa (ex : K → K) (s : SymSolver K) (g : K) : K := s.kB * s.T / s.h * ex (-g / (s.kB * s.T))

theorem kSym_ok (ex : K → K) {s : SymSolver K} {total P C : Str → K} {A D : Nat → K} (h : SymOk s total P C A D)
    {θ : Str → Option K} {d : Dict Symb K} (hd : SubsVal s P θ A D d) {e : SymExpr K} {g : K} (he : evalSym ex d e = .ok g) :
    evalSym ex d (kSym e) = .ok (kappa ex s g) := by
  simp only [kSym, evalSym, hd .kB, hd .T, hd .h, symVal, he, bind, Except.bind, pure, Except.pure]
  rw [if_neg h.hne, if_neg h.kT]
  simp [kappa]

theorem kfSym_ok (ex : K → K) {s : SymSolver K} {total P C : Str → K} {A D : Nat → K} (h : SymOk s total P C A D)
    {θ : Str → Option K} {d : Dict Symb K} (hd : SubsVal s P θ A D d) {i : Nat} (hi : i < s.o.rxns.length) :
    evalSym ex d (kfSym i) = .ok (kappa ex s (A i)) ∧ evalSym ex d (krSym i) = .ok (kappa ex s (A i - D i)) := by
  constructor
  · refine kSym_ok ex h hd ?_
    simp [evalSym, hd (.ga i), symVal, hi]
  · refine kSym_ok ex h hd ?_
    simp [evalSym, hd (.ga i), hd (.dg i), symVal, hi, bind, Except.bind, pure, Except.pure]

theorem freeExpr_ok (ex : K → K) {n : Network} (total v : Str → K) {d : Dict Symb K}
    (hd : ∀ a ∈ n.ads, get? d (.theta a) = some (v a)) (s : Str) :
    evalSym ex d (freeExpr n total s) = .ok (total s - ((n.ads.filter (fun a => OnSite a s)).map v).sum) := by
  unfold freeExpr
  have : ∀ (l : List Str) (e : SymExpr K) (x : K), (∀ a ∈ l, get? d (.theta a) = some (v a)) → evalSym ex d e = .ok x →
      evalSym ex d ((l.map fun a => SymExpr.sym (.theta a)).foldl .sub e) = .ok (x - (l.map v).sum) := by
    intro l
    induction l with
    | nil => intro e x _ he; simpa using he
    | cons a l ih =>
      intro e x hl he
      rw [List.map_cons, List.foldl_cons, ih _ (x - v a) (fun b hb => hl b (by simp [hb]))]
      · rw [List.map_cons, List.sum_cons]; congr 1; ring
      · simp only [evalSym, he, hl a (by simp), bind, Except.bind, pure, Except.pure]
  exact this _ _ _ (fun a ha => hd a (List.mem_filter.mp ha).1) rfl

theorem extractOf_ok (ex : K → K) {s : SymSolver K} {total P C : Str → K} {A D : Nat → K} (h : SymOk s total P C A D)
    {f : Formula} (hf : OccursIn s.o.rxns f) (h1 : specKind f.species f.site ≠ .ts)
    (h2 : specKind f.species f.site = .empty → f.speciesSite = str! "*_" ++ f.site) :
    ∃ e, extractOf s.o.net (s.o.net.sites.map (freeExpr s.o.net total)) f = .ok e ∧
      ∀ v d, SubsOk s P v A D d → evalSym ex d e = .ok (specAct P C (coverage s.o.net total v) f) := by
  have once := C08_listed_exactly_once _ _ h.ready.parse f hf
  unfold extractOf Formula.type
  cases hk : specKind f.species f.site with
  | gas =>
    have hs : f.site = ['g'] := by
      unfold specKind at hk
      by_contra hne
      rw [if_neg hne] at hk
      split at hk
      · cases hk
      · split at hk
        · cases hk
        · split at hk <;> cases hk
    have hm : f.speciesSite ∈ s.o.net.gas := (once .gas).mpr ⟨hk, by decide⟩
    rw [if_pos hs]
    dsimp only
    rw [if_pos hm]
    refine ⟨_, rfl, fun v d hd => ?_⟩
    simp [evalSym, hd (.p _), symVal, hm, specAct, hk]
  | liquid =>
    have hm : f.speciesSite ∈ s.o.net.liq := (once .liquid).mpr ⟨hk, by decide⟩
    rw [h.liq] at hm
    cases hm
  | ts => exact absurd hk h1
  | ads =>
    have hm : f.speciesSite ∈ s.o.net.ads := (once .ads).mpr ⟨hk, by decide⟩
    have hne : f.site ≠ ['g'] ∧ f.site ≠ ['l'] := by
      constructor <;> intro e <;> simp [specKind, e] at hk
    rw [if_neg hne.1, if_neg hne.2, if_neg (h.star _ hm)]
    dsimp only
    unfold extractAds
    rw [if_pos hm]
    refine ⟨_, rfl, fun v d hd => ?_⟩
    simp [evalSym, hd (.theta _), symVal, hm, specAct, hk, coverage]
  | empty =>
    have hne : f.site ≠ ['g'] ∧ f.site ≠ ['l'] := by
      constructor <;> intro e <;> simp [specKind, e] at hk
    have hm : f.speciesSite ∈ s.o.net.sites := by
      rw [C08_site_names _ _ h.ready.parse]
      exact ⟨f, hf, hne.1, hne.2, h2 hk⟩
    have hst : '*' ∈ f.speciesSite := by rw [h2 hk]; simp
    rw [if_neg hne.1, if_neg hne.2, if_pos hst]
    dsimp only
    have hlt := List.idxOf_lt_length_of_mem hm
    rw [if_pos hm, List.getElem?_map, List.getElem?_eq_getElem hlt, List.getElem_idxOf]
    refine ⟨_, rfl, fun v d hd => ?_⟩
    rw [freeExpr_ok ex total v (fun a ha => by simp [hd (.theta a), symVal, ha])]
    simp [specAct, hk, coverage, sites_disjoint h.ready.parse _ hm]

theorem stateSym_ok (ex : K → K) {s : SymSolver K} {total P C : Str → K} {A D : Nat → K} (h : SymOk s total P C A D)
    (fs : List Formula) (hfs : ∀ f ∈ fs, OccursIn s.o.rxns f ∧ specKind f.species f.site ≠ .ts ∧
      (specKind f.species f.site = .empty → f.speciesSite = str! "*_" ++ f.site)) (k : SymExpr K) :
    ∃ e, stateSym s.o.net (s.o.net.sites.map (freeExpr s.o.net total)) k fs = .ok e ∧
      ∀ v d, SubsOk s P v A D d → ∀ x, evalSym ex d k = .ok x →
        evalSym ex d e = .ok (x * stateActivity P C (coverage s.o.net total v) fs) := by
  induction fs generalizing k with
  | nil => exact ⟨k, rfl, fun v d _ x hx => by simpa [stateActivity] using hx⟩
  | cons f fs ih =>
    obtain ⟨a1, a2, a3⟩ := hfs f (by simp)
    obtain ⟨e, e1, e2⟩ := extractOf_ok ex h a1 a2 a3
    obtain ⟨e', e3, e4⟩ := ih (fun g hg => hfs g (by simp [hg])) (.mul k (.pow e f.stoich))
    refine ⟨e', ?_, ?_⟩
    · unfold stateSym
      rw [e1]
      exact e3
    · intro v d hd x hx
      rw [e4 v d hd (x * specAct P C (coverage s.o.net total v) f ^ f.stoich)]
      · simp only [stateActivity, List.map_cons, List.prod_cons]
        congr 1
        ring
      · simp only [evalSym, hx, e2 v d hd, bind, Except.bind, pure, Except.pure]

theorem rateSym_ok (ex : K → K) {s : SymSolver K} {total P C : Str → K} {A D : Nat → K} (h : SymOk s total P C A D)
    {i : Nat} (hi : i < s.o.rxns.length) {states : List (List Formula)} {is fs : List Formula}
    (hs : eqnFormulas s.o.rxns[i] = .ok states) (h1 : states.head? = some is) (h2 : states.getLast? = some fs) :
    ∃ e, rateSym s s.o.rxns[i] = .ok e ∧ ∀ v d, SubsOk s P v A D d →
      evalSym ex d e.1 = .ok (kappa ex s (A (s.o.rxns.idxOf s.o.rxns[i])) * stateActivity P C (coverage s.o.net total v) is) ∧
      evalSym ex d e.2 = .ok (kappa ex s (A (s.o.rxns.idxOf s.o.rxns[i]) - D (s.o.rxns.idxOf s.o.rxns[i]))
        * stateActivity P C (coverage s.o.net total v) fs) := by
  obtain ⟨st, is', fs', b1, b2, -, b4, b5, b6, b7⟩ := states_ok h.ready.parse hi
  rw [hs] at b1; cases b1
  rw [h1] at b4; rw [h2] at b5; cases b4; cases b5
  have hc := clean_at h.clean b2
  obtain ⟨hi', -⟩ := idxOf_getElem?_same hi
  obtain ⟨e, e1, e2⟩ := stateSym_ok ex h is (fun f hf => ⟨b6 f hf, (hc.1.1 is (Or.inl h1) f hf).1, hc.1.2 is (Or.inl h1) f hf⟩)
    (kfSym (s.o.rxns.idxOf s.o.rxns[i]))
  obtain ⟨e', e3, e4⟩ := stateSym_ok ex h fs (fun f hf => ⟨b7 f hf, (hc.1.1 fs (Or.inr h2) f hf).1, hc.1.2 fs (Or.inr h2) f hf⟩)
    (krSym (s.o.rxns.idxOf s.o.rxns[i]))
  refine ⟨(e, e'), ?_, fun v d hd => ⟨e2 v d hd _ (kfSym_ok ex h hd hi').1, e4 v d hd _ (kfSym_ok ex h hd hi').2⟩⟩
  unfold rateSym
  rw [if_neg (by simp), h.free]
  dsimp only
  rw [hs]
  simp only [bind, Except.bind, h1, h2, e1, e3]
  rfl

end Verif
