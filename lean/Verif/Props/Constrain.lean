import Verif.Lemmas.Constrain
import Verif.Props.MeanField
/-
Properties C24, C30: constraining coverages, residual.
-/
namespace Verif
open Dict
set_option linter.unusedSectionVars false
variable {K : Type} [Field K] [LinearOrder K] [IsStrictOrderedRing K]

/-! ## C24 -/

/-- The coverages of a tuple on one site type, added. -/
def siteSum (n : Network) (cvgs : List K) (s : Str) : K :=
  (((n.ads.zip cvgs).filter fun x => OnSite x.1 s).map (·.2)).sum

/-- A physical coverage tuple: one number in `[0, 1]` for each adsorbate, no site type holding more
than its total. -/
structure Physical (n : Network) (total : Str → K) (cvgs : List K) : Prop where
  length : cvgs.length = n.ads.length
  unit : ∀ c ∈ cvgs, 0 ≤ c ∧ c ≤ 1
  sites : ∀ s ∈ n.sites, siteSum n cvgs s ≤ total s

theorem siteSum_map (n : Network) (v : Str → K) (s : Str) :
    siteSum n (n.ads.map v) s = ((n.ads.filter fun a => OnSite a s).map v).sum := by
  unfold siteSum
  have : ∀ l : List Str, (((l.zip (l.map v)).filter fun x => OnSite x.1 s).map (·.2))
      = (l.filter fun a => OnSite a s).map v := by
    intro l
    induction l with
    | nil => rfl
    | cons a l ih =>
      by_cases ha : OnSite a s <;> simp [ha, ih]
  rw [this]

theorem sum_map_nonneg (l : List Str) (v : Str → K) (h : ∀ a ∈ l, 0 ≤ v a) : 0 ≤ (l.map v).sum := by
  apply List.sum_nonneg
  simpa using h

theorem le_sum_of_mem (l : List Str) (v : Str → K) (h : ∀ a ∈ l, 0 ≤ v a) {a : Str} (ha : a ∈ l) :
    v a ≤ (l.map v).sum := by
  induction l with
  | nil => simp at ha
  | cons b l ih =>
    rw [List.map_cons, List.sum_cons]
    have h1 := sum_map_nonneg l v fun x hx => h x (by simp [hx])
    have h2 := h b (by simp)
    rcases List.mem_cons.mp ha with e | e
    · subst e; linarith
    · have := ih (fun x hx => h x (by simp [hx])) e; linarith

/-- Whatever coverages are given, constraining returns physical ones. -/
theorem C24_physical (o : MFOwner K) (total P C : Str → K) (h : Ready o total P C)
    (hpos : ∀ s ∈ o.net.sites, 0 ≤ total s) (cvgs : List K) (hlen : cvgs.length = o.net.ads.length) :
    ∃ out, constrainCoverages o cvgs = .ok out ∧ Physical o.net total out ∧
      ∀ (i : Nat) (a : Str) (c : K), o.net.ads[i]? = some a → out[i]? = some c →
        ∀ s ∈ o.net.sites, OnSite a s → c ≤ total s := by
  obtain ⟨v, rfl⟩ := tuple_as_function (ads_nodup h.parse) hlen
  obtain ⟨w, h1, h2⟩ := constrain_ok h hpos v
  have hw : ∀ a ∈ o.net.ads, ∀ s ∈ o.net.sites, OnSite a s → 0 ≤ w a ∧ w a ≤ 1 ∧ w a ≤ total s := by
    intro a ha s hs hon
    obtain ⟨c1, c2, -⟩ := clamp_bounds (v a)
    have m0 : 0 ≤ min (clamp (v a)) (total s) := le_min c1 (hpos s hs)
    obtain ⟨l1, l2⟩ := limited_bounds (S := ((o.net.ads.filter (fun a => OnSite a s)).map fun b =>
      min (clamp (v b)) (total s)).sum) (hpos s hs) m0
    rw [h2 s hs a ha hon]
    exact ⟨l1, l2.trans ((min_le_left _ _).trans c2), l2.trans (min_le_right _ _)⟩
  refine ⟨_, h1, ⟨by simp, ?_, ?_⟩, ?_⟩
  · intro c hc
    obtain ⟨a, ha, rfl⟩ := List.mem_map.mp hc
    obtain ⟨s, hs, hon⟩ := ads_onSite h.parse ha
    exact ⟨(hw a ha s hs hon).1, (hw a ha s hs hon).2.1⟩
  · intro s hs
    rw [siteSum_map]
    have : (o.net.ads.filter fun a => OnSite a s).map w = (o.net.ads.filter fun a => OnSite a s).map fun a =>
        limited ((o.net.ads.filter (fun a => OnSite a s)).map fun b => min (clamp (v b)) (total s)).sum
          (total s) (min (clamp (v a)) (total s)) := by
      apply List.map_congr_left
      intro a ha
      obtain ⟨ha, hon⟩ := List.mem_filter.mp ha
      exact h2 s hs a ha (by simpa using hon)
    rw [this, limited_sum _ (fun b => min (clamp (v b)) (total s)) _ (hpos s hs)]
    exact min_le_right _ _
  · intro i a c ha hc s hs hon
    rw [List.getElem?_map, ha] at hc
    rw [← Option.some.inj hc]
    exact (hw a (List.mem_of_getElem? ha) s hs hon).2.2

/-- Physical coverages are left as they are. -/
theorem C24_physical_unchanged (o : MFOwner K) (total P C : Str → K) (h : Ready o total P C)
    (cvgs : List K) (hp : Physical o.net total cvgs) : constrainCoverages o cvgs = .ok cvgs := by
  obtain ⟨v, rfl⟩ := tuple_as_function (ads_nodup h.parse) hp.length
  have hv : ∀ a ∈ o.net.ads, 0 ≤ v a ∧ v a ≤ 1 := fun a ha => hp.unit _ (List.mem_map_of_mem ha)
  have hfil : ∀ s, ∀ a ∈ o.net.ads.filter (fun a => OnSite a s), 0 ≤ v a :=
    fun s a ha => (hv a (List.mem_filter.mp ha).1).1
  have hpos : ∀ s ∈ o.net.sites, 0 ≤ total s := by
    intro s hs
    have := hp.sites s hs
    rw [siteSum_map] at this
    exact (sum_map_nonneg _ v (hfil s)).trans this
  obtain ⟨w, h1, h2⟩ := constrain_ok h hpos v
  rw [h1]
  congr 1
  apply List.map_congr_left
  intro a ha
  obtain ⟨s, hs, hon⟩ := ads_onSite h.parse ha
  have hsum := hp.sites s hs
  rw [siteSum_map] at hsum
  have each : ∀ b ∈ o.net.ads.filter (fun a => OnSite a s), min (clamp (v b)) (total s) = v b := by
    intro b hb
    have hb' := hv b (List.mem_filter.mp hb).1
    rw [(clamp_bounds (v b)).2.2 hb'.1 hb'.2]
    exact min_eq_left ((le_sum_of_mem _ v (hfil s) hb).trans hsum)
  rw [h2 s hs a ha hon, List.map_congr_left each, each a (List.mem_filter.mpr ⟨ha, by simpa using hon⟩)]
  unfold limited
  rw [if_neg (not_lt.mpr hsum)]

/-- Constraining twice is constraining once. -/
theorem C24_idempotent (o : MFOwner K) (total P C : Str → K) (h : Ready o total P C)
    (hpos : ∀ s ∈ o.net.sites, 0 ≤ total s) (cvgs : List K) (hlen : cvgs.length = o.net.ads.length) :
    ∃ out, constrainCoverages o cvgs = .ok out ∧ constrainCoverages o out = .ok out := by
  obtain ⟨out, h1, h2, -⟩ := C24_physical o total P C h hpos cvgs hlen
  exact ⟨out, h1, C24_physical_unchanged o total P C h out h2⟩

/-- An overfull site (all coverages already in range) is filled exactly, in the given
proportions. -/
theorem C24_overfull_site (o : MFOwner K) (total P C : Str → K) (h : Ready o total P C)
    (hpos : ∀ s ∈ o.net.sites, 0 ≤ total s) (cvgs : List K) (hlen : cvgs.length = o.net.ads.length)
    (s : Str) (hs : s ∈ o.net.sites) (hover : total s < siteSum o.net cvgs s)
    (hrange : ∀ x ∈ o.net.ads.zip cvgs, OnSite x.1 s → 0 ≤ x.2 ∧ x.2 ≤ 1 ∧ x.2 ≤ total s) :
    ∃ out, constrainCoverages o cvgs = .ok out ∧ siteSum o.net out s = total s ∧
      ∀ (i : Nat) (a : Str) (c c' : K), o.net.ads[i]? = some a → OnSite a s → cvgs[i]? = some c →
        out[i]? = some c' → c' * siteSum o.net cvgs s = c * total s := by
  obtain ⟨v, rfl⟩ := tuple_as_function (ads_nodup h.parse) hlen
  obtain ⟨w, h1, h2⟩ := constrain_ok h hpos v
  rw [siteSum_map] at hover
  have hr : ∀ a ∈ o.net.ads, OnSite a s → min (clamp (v a)) (total s) = v a := by
    intro a ha hon
    have hz : (a, v a) ∈ o.net.ads.zip (o.net.ads.map v) := by
      obtain ⟨i, hi, rfl⟩ := List.mem_iff_getElem.mp ha
      apply List.mem_iff_getElem?.mpr ⟨i, _⟩
      rw [List.getElem?_zip_eq_some]
      exact ⟨List.getElem?_eq_getElem hi, by rw [List.getElem?_map, List.getElem?_eq_getElem hi]; rfl⟩
    obtain ⟨r1, r2, r3⟩ := hrange _ hz hon
    dsimp only at r1 r2 r3
    rw [(clamp_bounds (v a)).2.2 r1 r2, min_eq_left r3]
  have hsum : (o.net.ads.filter (fun a => OnSite a s)).map (fun b => min (clamp (v b)) (total s))
      = (o.net.ads.filter (fun a => OnSite a s)).map v := by
    apply List.map_congr_left
    intro b hb
    exact hr b (List.mem_filter.mp hb).1 (by simpa using (List.mem_filter.mp hb).2)
  have hw : ∀ a ∈ o.net.ads, OnSite a s →
      w a = limited ((o.net.ads.filter (fun a => OnSite a s)).map v).sum (total s) (v a) := by
    intro a ha hon
    rw [h2 s hs a ha hon, hr a ha hon, hsum]
  refine ⟨_, h1, ?_, ?_⟩
  · rw [siteSum_map]
    have : (o.net.ads.filter fun a => OnSite a s).map w = (o.net.ads.filter fun a => OnSite a s).map fun a =>
        limited ((o.net.ads.filter (fun a => OnSite a s)).map v).sum (total s) (v a) := by
      apply List.map_congr_left
      intro a ha
      exact hw a (List.mem_filter.mp ha).1 (by simpa using (List.mem_filter.mp ha).2)
    rw [this, limited_sum _ v _ (hpos s hs)]
    exact min_eq_right hover.le
  · intro i a c c' ha hon hc hc'
    rw [List.getElem?_map, ha] at hc hc'
    rw [← Option.some.inj hc, ← Option.some.inj hc', siteSum_map, hw a (List.mem_of_getElem? ha) hon]
    unfold limited
    rw [if_pos hover]
    have : ((o.net.ads.filter (fun a => OnSite a s)).map v).sum ≠ 0 :=
      (lt_of_le_of_lt (hpos s hs) hover).ne'
    field_simp

/-- A tuple that is too short is rejected. -/
theorem C24_short_tuple (o : MFOwner K) (h : parseNetwork o.rxns = .ok o.net) (cvgs : List K)
    (hlen : cvgs.length < o.net.ads.length) : constrainCoverages o cvgs = .error .IndexError := by
  obtain ⟨cls, hc, -⟩ := classifyAds_ok h
  unfold constrainCoverages
  simp only [bind, Except.bind, hc, C23_short_tuple o h cvgs hlen]

/-- Clamping, capping and scaling at work; and a physical tuple. -/
example : constrainCoverages exMF [3, -1] = .ok [1, 0] ∧ constrainCoverages exMF [1, 3] = .ok [1 / 2, 1 / 2] ∧
    constrainCoverages exMF [3 / 4, 1 / 2] = .ok [3 / 5, 2 / 5] ∧
    constrainCoverages exMF [1 / 4, 1 / 2] = .ok [1 / 4, 1 / 2] := by decide +kernel
example : Physical (K := ℚ) exMF.net (fun _ => 1) [1 / 4, 1 / 2] :=
  ⟨by decide, by decide +kernel, by decide +kernel⟩
example : siteSum (K := ℚ) exMF.net [3 / 4, 1 / 2] (str! "*_s") = 5 / 4 := by decide +kernel

/-! ## C30 -/

theorem foldl_max (l : List K) (m : K) :
    m ≤ l.foldl (fun m y => if m < y then y else m) m ∧
    (∀ x ∈ l, x ≤ l.foldl (fun m y => if m < y then y else m) m) ∧
    (l.foldl (fun m y => if m < y then y else m) m = m ∨ l.foldl (fun m y => if m < y then y else m) m ∈ l) := by
  induction l generalizing m with
  | nil => simp
  | cons y l ih =>
    rw [List.foldl_cons]
    by_cases h : m < y
    · rw [if_pos h]
      obtain ⟨h1, h2, h3⟩ := ih y
      refine ⟨h.le.trans h1, ?_, Or.inr ?_⟩
      · intro x hx
        rcases List.mem_cons.mp hx with e | e
        · subst e; exact h1
        · exact h2 x e
      · rcases h3 with e | e
        · rw [e]; simp
        · exact List.mem_cons_of_mem _ e
    · rw [if_neg h]
      obtain ⟨h1, h2, h3⟩ := ih m
      refine ⟨h1, ?_, ?_⟩
      · intro x hx
        rcases List.mem_cons.mp hx with e | e
        · subst e; exact (not_lt.mp h).trans h1
        · exact h2 x e
      · rcases h3 with e | e
        · exact Or.inl e
        · exact Or.inr (List.mem_cons_of_mem _ e)

/-- For a network with adsorbates the residual exists whenever the derivatives do; it is
non-negative, bounds every derivative, is attained, and is zero exactly for stationary
coverages. -/
theorem C30_residual (o : MFOwner K) (k : List K × List K) (cvgs ds : List K)
    (h : steadyStateFunction o k cvgs = .ok ds) (hne : ds ≠ []) :
    ∃ r, getResidual o k cvgs = .ok r ∧ 0 ≤ r ∧ (∀ d ∈ ds, |d| ≤ r) ∧ (∃ d ∈ ds, |d| = r) ∧
      (r = 0 ↔ ∀ d ∈ ds, d = 0) ∧ (∀ ε, r < ε ↔ ∀ d ∈ ds, |d| < ε) := by
  obtain ⟨d, ds, rfl⟩ : ∃ a l, ds = a :: l := List.exists_cons_of_ne_nil hne
  obtain ⟨m1, m2, m3⟩ := foldl_max (ds.map fun d => |d|) |d|
  generalize hr : (ds.map fun d => |d|).foldl (fun m y => if m < y then y else m) |d| = r at m1 m2 m3
  have hall : ∀ x ∈ d :: ds, |x| ≤ r := by
    intro x hx
    rcases List.mem_cons.mp hx with e | e
    · subst e; exact m1
    · exact m2 _ (List.mem_map_of_mem (f := fun d => |d|) e)
  have hatt : ∃ x ∈ d :: ds, |x| = r := by
    rcases m3 with e | e
    · exact ⟨d, by simp, e.symm⟩
    · obtain ⟨x, hx, he⟩ := List.mem_map.mp e
      exact ⟨x, by simp [hx], he⟩
  have h0 : 0 ≤ r := (abs_nonneg d).trans m1
  refine ⟨r, ?_, h0, hall, hatt, ?_, ?_⟩
  · unfold getResidual
    rw [h]
    simp only [bind, Except.bind, List.map_cons, pyMax, hr]
  · constructor
    · intro e x hx
      have := hall x hx
      rw [e] at this
      exact abs_nonpos_iff.mp this
    · intro hz
      obtain ⟨x, hx, he⟩ := hatt
      rw [← he, hz x hx, abs_zero]
  · intro ε
    constructor
    · exact fun hr x hx => lt_of_le_of_lt (hall x hx) hr
    · intro hx
      obtain ⟨x, hm, he⟩ := hatt
      rw [← he]; exact hx x hm

/-- Without adsorbates there is no residual. -/
theorem C30_no_adsorbates (o : MFOwner K) (k : List K × List K) (cvgs : List K)
    (h : steadyStateFunction o k cvgs = .ok []) : getResidual o k cvgs = .error .ValueError := by
  unfold getResidual; rw [h]; rfl

example : steadyStateFunction exMF ([4, 8, 16], [1, 0, 0]) [1 / 4, 1 / 4] = .ok [-1 / 4, 0] ∧
    getResidual exMF ([4, 8, 16], [1, 0, 0]) [1 / 4, 1 / 4] = .ok (1 / 4) := by decide +kernel

/-! ### The theorems at these cases -/

example := C24_physical exMF (fun _ => 1) exP (fun _ => 0) exMF_ready (fun _ _ => zero_le_one) [3, -1] rfl

example := C24_physical_unchanged exMF (fun _ => 1) exP (fun _ => 0) exMF_ready [1 / 4, 1 / 2] ⟨by decide, by decide +kernel, by decide +kernel⟩

example := C24_idempotent exMF (fun _ => 1) exP (fun _ => 0) exMF_ready (fun _ _ => zero_le_one) [3 / 4, 1 / 2] rfl

example := C24_overfull_site exMF (fun _ => 1) exP (fun _ => 0) exMF_ready (fun _ _ => zero_le_one) [3 / 4, 1 / 2] rfl (str! "*_s") (by decide)
  (by decide +kernel) (fun x hx _ => by revert x; decide +kernel)

example := C24_short_tuple exMF exMF_ready.parse [3 / 4] (by decide)

example := C30_residual exMF ([4, 8, 16], [1, 0, 0]) [1 / 4, 1 / 4] [-1 / 4, 0] (by decide +kernel) (by decide)

example := C30_no_adsorbates (K := ℚ) ⟨[], ⟨[], [], [], [], [], []⟩, [], [], []⟩ ([], []) [] (by decide +kernel)

end Verif
