import Verif.Model.Constrain
import Verif.Lemmas.MeanField
import Verif.Lemmas.Balance
import Mathlib.Algebra.Order.BigOperators.Group.List
import Mathlib.Tactic.FieldSimp
import Mathlib.Tactic.Linarith
import Mathlib.Tactic.Positivity
/-
Lemmas about `Verif/Model/Constrain.lean`.
-/
set_option linter.unusedSectionVars false
namespace Verif
open Dict

variable {K : Type} [Field K] [LinearOrder K]

theorem onSite_unique {a s t : Str} (h1 : OnSite a s) (h2 : OnSite a t) : s = t :=
  Except.ok.inj (h1.symm.trans h2)

theorem set_absent {ν : Type} (d : Dict Str ν) (k : Str) (v : ν) (h : k ∉ keys d) :
    Dict.set d k v = d ++ [(k, v)] := by
  induction d with
  | nil => rfl
  | cons e d ih =>
    obtain ⟨a, w⟩ := e
    simp only [keys, List.map_cons, List.mem_cons, not_or] at h
    unfold Dict.set
    rw [if_neg (fun e => h.1 e.symm), ih h.2]
    rfl

theorem setDefault_absent {ν : Type} (d : Dict Str ν) (k : Str) (v : ν) (h : k ∉ keys d) :
    setDefault d k v = d ++ [(k, v)] := by
  unfold setDefault
  rw [get?_eq_none.mpr h]
  exact set_absent d k v h

theorem get?_update {ν : Type} (as : List Str) (w : Str → ν) (d : Dict Str ν) (x : Str) :
    get? ((as.map fun a => (a, w a)).foldl (fun d e => Dict.set d e.1 e.2) d) x
      = if x ∈ as then some (w x) else get? d x := by
  induction as generalizing d with
  | nil => simp
  | cons a as ih =>
    rw [List.map_cons, List.foldl_cons, ih, get?_set]
    by_cases hx : x ∈ as
    · simp [hx]
    · by_cases e : a = x
      · subst e; simp [hx]
      · have : ¬ x = a := fun h => e h.symm
        simp [hx, e, this]

/-- A coverage forced into `[0, 1]`. -/
def clamp (x : K) : K := if 1 < x then 1 else if x < 0 then 0 else x

theorem clampUnit_ok (ads : List Str) (v : Str → K) (d : Dict Str K) (as : List Str) (hz : (0 : K) < 1)
    (hnd : as.Nodup) (hsub : ∀ a ∈ as, a ∈ ads) (hd : ∀ a ∈ ads, get? d a = some (v a)) :
    ∃ d', clampUnit d as = .ok d' ∧
      ∀ a ∈ ads, get? d' a = some (if a ∈ as then clamp (v a) else v a) := by
  induction as generalizing d v with
  | nil => exact ⟨d, rfl, fun a ha => by simpa using hd a ha⟩
  | cons b as ih =>
    rw [List.nodup_cons] at hnd
    have hb := hd b (hsub b (by simp))
    have step : ∃ d', (∀ a ∈ ads, get? d' a = some (if a = b then clamp (v a) else v a)) ∧
        clampUnit d (b :: as) = clampUnit d' as := by
      by_cases h1 : 1 < v b
      · refine ⟨Dict.set d b 1, ?_, ?_⟩
        · intro a ha
          rw [get?_set]
          by_cases e : a = b
          · subst e; simp [clamp, h1]
          · rw [if_neg (fun h : b = a => e h.symm), if_neg e, hd a ha]
        · conv_lhs => unfold clampUnit
          have hg : dictGet (Dict.set d b (1 : K)) b = .ok 1 := dictGet_ok.mpr (by rw [get?_set, if_pos rfl])
          simp only [bind, Except.bind, dictGet_ok.mpr hb, if_pos h1, hg]
          rw [if_neg (not_lt.mpr hz.le)]
      · by_cases h2 : v b < 0
        · refine ⟨Dict.set d b 0, ?_, ?_⟩
          · intro a ha
            rw [get?_set]
            by_cases e : a = b
            · subst e; simp [clamp, h1, h2]
            · rw [if_neg (fun h : b = a => e h.symm), if_neg e, hd a ha]
          · conv_lhs => unfold clampUnit
            simp only [bind, Except.bind, dictGet_ok.mpr hb, if_neg h1, if_pos h2]
        · refine ⟨d, ?_, ?_⟩
          · intro a ha
            by_cases e : a = b
            · subst e; simp [clamp, h1, h2, hb]
            · rw [if_neg e, hd a ha]
          · conv_lhs => unfold clampUnit
            simp only [bind, Except.bind, dictGet_ok.mpr hb, if_neg h1, if_neg h2]
    obtain ⟨d1, hd1, he⟩ := step
    obtain ⟨d', h1, h2⟩ := ih (fun a => if a = b then clamp (v a) else v a) d1 hnd.2
      (fun a ha => hsub a (by simp [ha])) hd1
    refine ⟨d', he.trans h1, ?_⟩
    intro a ha
    rw [h2 a ha]
    by_cases e : a = b
    · subst e; simp [hnd.1]
    · simp [e]

theorem capSite_ok (ads : List Str) (v : Str → K) (t : K) (d : Dict Str K) (as : List Str)
    (hnd : as.Nodup) (hsub : ∀ a ∈ as, a ∈ ads) (hd : ∀ a ∈ ads, get? d a = some (v a)) :
    ∃ d', capSite t d as = .ok d' ∧
      ∀ a ∈ ads, get? d' a = some (if a ∈ as then min (v a) t else v a) := by
  induction as generalizing d v with
  | nil => exact ⟨d, rfl, fun a ha => by simpa using hd a ha⟩
  | cons b as ih =>
    rw [List.nodup_cons] at hnd
    have hb := hd b (hsub b (by simp))
    have hd1 : ∀ a ∈ ads, get? (if t < v b then Dict.set d b t else d) a
        = some (if a = b then min (v a) t else v a) := by
      intro a ha
      by_cases h1 : t < v b
      · rw [if_pos h1, get?_set]
        by_cases e : a = b
        · subst e; simp [min_eq_right h1.le]
        · rw [if_neg (fun h : b = a => e h.symm), if_neg e, hd a ha]
      · rw [if_neg h1, hd a ha]
        by_cases e : a = b
        · subst e; rw [if_pos rfl, min_eq_left (not_lt.mp h1)]
        · rw [if_neg e]
    obtain ⟨d', h1, h2⟩ := ih (fun a => if a = b then min (v a) t else v a) _ hnd.2
      (fun a ha => hsub a (by simp [ha])) hd1
    refine ⟨d', ?_, ?_⟩
    · conv_lhs => unfold capSite
      simp only [bind, Except.bind, dictGet_ok.mpr hb]
      exact h1
    · intro a ha
      rw [h2 a ha]
      by_cases e : a = b
      · subst e; simp [hnd.1]
      · simp [e]

theorem capSites_ok (totals : Dict Str K) (cls : Dict Str (List Str)) (ads : List Str) (v total : Str → K)
    (d : Dict Str K) (ss : List Str) (hnd : ads.Nodup) (hss : ss.Nodup)
    (hd : ∀ a ∈ ads, get? d a = some (v a)) (htot : ∀ s ∈ ss, get? totals s = some (total s))
    (hcls : ∀ s ∈ ss, get? cls s = some (ads.filter (fun a => OnSite a s))) :
    ∃ (d' : Dict Str K) (w : Str → K), capSites totals cls d ss = .ok d' ∧ (∀ a ∈ ads, get? d' a = some (w a)) ∧
      (∀ a ∈ ads, (∀ s ∈ ss, ¬ OnSite a s) → w a = v a) ∧
      (∀ s ∈ ss, ∀ a ∈ ads, OnSite a s → w a = min (v a) (total s)) := by
  induction ss generalizing d v with
  | nil => exact ⟨d, v, rfl, hd, fun a _ _ => rfl, by simp⟩
  | cons s ss ih =>
    rw [List.nodup_cons] at hss
    obtain ⟨d1, h1, h2⟩ := capSite_ok ads v (total s) d (ads.filter (fun a => OnSite a s)) (hnd.filter _)
      (fun a ha => (List.mem_filter.mp ha).1) hd
    obtain ⟨d', w, h3, h4, h5, h6⟩ := ih _ d1 hss.2 h2 (fun t ht => htot t (by simp [ht]))
      (fun t ht => hcls t (by simp [ht]))
    have hmem : ∀ a ∈ ads, a ∈ ads.filter (fun a => OnSite a s) ↔ OnSite a s := by
      intro a ha; simp [ha]
    refine ⟨d', w, ?_, h4, ?_, ?_⟩
    · conv_lhs => unfold capSites
      simp only [bind, Except.bind, dictGet_ok.mpr (htot s (by simp)), dictGet_ok.mpr (hcls s (by simp)), h1]
      exact h3
    · intro a ha hno
      rw [h5 a ha (fun t ht => hno t (by simp [ht])), if_neg]
      rw [hmem a ha]; exact hno s (by simp)
    · intro t ht a ha hon
      by_cases e : t = s
      · subst e
        rw [h5 a ha (fun u hu hou => hss.1 (onSite_unique hon hou ▸ hu)), if_pos ((hmem a ha).mpr hon)]
      · have hts : t ∈ ss := by
          rcases List.mem_cons.mp ht with h | h
          · exact absurd h e
          · exact h
        rw [h6 t hts a ha hon, if_neg]
        rw [hmem a ha]; exact fun h => e (onSite_unique hon h)

theorem subCoverages_ok (d sub : Dict Str K) (v : Str → K) (as : List Str) (hnd : as.Nodup)
    (hd : ∀ a ∈ as, get? d a = some (v a)) (hdis : ∀ a ∈ as, a ∉ keys sub) :
    subCoverages d sub as = .ok (sub ++ as.map fun a => (a, v a)) := by
  induction as generalizing sub with
  | nil => simp [subCoverages]
  | cons b as ih =>
    rw [List.nodup_cons] at hnd
    unfold subCoverages
    simp only [bind, Except.bind, dictGet_ok.mpr (hd b (by simp))]
    rw [setDefault_absent _ _ _ (hdis b (by simp)), ih _ hnd.2 (fun a ha => hd a (by simp [ha]))]
    · simp
    · intro a ha hk
      simp only [keys, List.map_append, List.map_cons, List.map_nil, List.mem_append, List.mem_singleton] at hk
      rcases hk with hk | rfl
      · exact hdis a (by simp [ha]) hk
      · exact hnd.1 ha

/-- A coverage scaled down when the sum exceeds the limit. -/
def limited (S t x : K) : K := if t < S then x / S * t else x

theorem constrainInTotal_ok (as : List Str) (v : Str → K) (t : K) (ht : 0 ≤ t) :
    constrainInTotal (as.map fun a => (a, v a)) t = .ok (as.map fun a => (a, limited (as.map v).sum t (v a))) := by
  unfold constrainInTotal
  simp only [List.map_map]
  have he : (List.map ((fun x : Str × K => x.2) ∘ fun a => (a, v a)) as) = as.map v := rfl
  rw [he]
  by_cases h : t < (as.map v).sum
  · rw [if_pos h]
    have hne : (as.map v).sum ≠ 0 := fun e => absurd h (not_lt.mpr (e ▸ ht))
    simp only [if_neg hne]
    rw [mapM_ok_map (g := fun e : Str × K => (e.1, e.2 / (as.map v).sum * t)) (fun _ _ => rfl), List.map_map]
    simp only [limited, if_pos h]
    rfl
  · rw [if_neg h]
    simp only [limited, if_neg h]

theorem limitSites_ok (totals : Dict Str K) (cls : Dict Str (List Str)) (ads : List Str) (v total : Str → K)
    (d : Dict Str K) (ss : List Str) (hnd : ads.Nodup) (hss : ss.Nodup)
    (hd : ∀ a ∈ ads, get? d a = some (v a)) (htot : ∀ s ∈ ss, get? totals s = some (total s))
    (hpos : ∀ s ∈ ss, 0 ≤ total s)
    (hcls : ∀ s ∈ ss, get? cls s = some (ads.filter (fun a => OnSite a s))) :
    ∃ (d' : Dict Str K) (w : Str → K), limitSites totals cls d ss = .ok d' ∧ (∀ a ∈ ads, get? d' a = some (w a)) ∧
      (∀ a ∈ ads, (∀ s ∈ ss, ¬ OnSite a s) → w a = v a) ∧
      (∀ s ∈ ss, ∀ a ∈ ads, OnSite a s →
        w a = limited ((ads.filter (fun a => OnSite a s)).map v).sum (total s) (v a)) := by
  induction ss generalizing d v with
  | nil => exact ⟨d, v, rfl, hd, fun a _ _ => rfl, by simp⟩
  | cons s ss ih =>
    rw [List.nodup_cons] at hss
    have h1 := subCoverages_ok d [] v (ads.filter (fun a => OnSite a s)) (hnd.filter _)
      (fun a ha => hd a (List.mem_filter.mp ha).1) (fun a _ => by simp [keys])
    rw [List.nil_append] at h1
    have h2 := constrainInTotal_ok (ads.filter (fun a => OnSite a s)) v (total s) (hpos s (by simp))
    have hmem : ∀ a ∈ ads, a ∈ ads.filter (fun a => OnSite a s) ↔ OnSite a s := by
      intro a ha; simp [ha]
    generalize hS : ((ads.filter (fun a => OnSite a s)).map v).sum = S at h2
    have hd1 : ∀ a ∈ ads, get? (((ads.filter (fun a => OnSite a s)).map fun a =>
        (a, limited S (total s) (v a))).foldl (fun d e => Dict.set d e.1 e.2) d) a
          = some (if OnSite a s then limited S (total s) (v a) else v a) := by
      intro a ha
      rw [get?_update _ (fun a => limited S (total s) (v a))]
      simp only [hmem a ha]
      split
      · rfl
      · exact hd a ha
    obtain ⟨d', w, h3, h4, h5, h6⟩ := ih _ _ hss.2 hd1 (fun t ht => htot t (by simp [ht]))
      (fun t ht => hpos t (by simp [ht])) (fun t ht => hcls t (by simp [ht]))
    refine ⟨d', w, ?_, h4, ?_, ?_⟩
    · conv_lhs => unfold limitSites
      simp only [bind, Except.bind, dictGet_ok.mpr (htot s (by simp)), dictGet_ok.mpr (hcls s (by simp)), h1, h2]
      exact h3
    · intro a ha hno
      rw [h5 a ha (fun t ht => hno t (by simp [ht])), if_neg (hno s (by simp))]
    · intro t ht a ha hon
      by_cases e : t = s
      · subst e
        rw [h5 a ha (fun u hu hou => hss.1 (onSite_unique hon hou ▸ hu)), if_pos hon, hS]
      · have hts : t ∈ ss := by
          rcases List.mem_cons.mp ht with h | h
          · exact absurd h e
          · exact h
        rw [h6 t hts a ha hon, if_neg (fun h => e (onSite_unique hon h))]
        congr 2
        apply List.map_congr_left
        intro b hb
        have hb' : OnSite b t := by simpa using (List.mem_filter.mp hb).2
        rw [if_neg (fun h => e (onSite_unique hb' h))]

/-- What constraining does to each coverage. -/
theorem constrain_ok [IsStrictOrderedRing K] {o : MFOwner K} {total P C : Str → K} (h : Ready o total P C)
    (hpos : ∀ s ∈ o.net.sites, 0 ≤ total s) (v : Str → K) :
    ∃ w, constrainCoverages o (o.net.ads.map v) = .ok (o.net.ads.map w) ∧
      ∀ s ∈ o.net.sites, ∀ a ∈ o.net.ads, OnSite a s →
        w a = limited ((o.net.ads.filter (fun a => OnSite a s)).map fun b => min (clamp (v b)) (total s)).sum
          (total s) (min (clamp (v a)) (total s)) := by
  obtain ⟨cls, hc1, hc2⟩ := classifyAds_ok h.parse
  have hsorted := C08_lists_sorted _ _ h.parse
  have hcls : ∀ s ∈ o.net.sites, get? cls s = some (o.net.ads.filter (fun a => OnSite a s)) := by
    intro s hs; rw [hc2, if_pos hs]
  have hads : o.net.ads.Nodup := by
    have := siteCols_nodup h.parse
    exact (List.nodup_append.mp this).2.1
  obtain ⟨d0, e0, f0, -⟩ := cvgTuple2Dict_ok h v
  have f0' : ∀ a ∈ o.net.ads, get? d0 a = some (v a) := by
    intro a ha
    rw [f0 a (List.mem_append_right _ ha)]
    unfold coverage
    rw [if_pos ha]
  obtain ⟨d1, e1, f1⟩ := clampUnit_ok o.net.ads v d0 o.net.ads zero_lt_one hads (fun a ha => ha) f0'
  obtain ⟨d2, u, e2, f2, -, g2⟩ := capSites_ok o.totals cls o.net.ads _ total d1 o.net.sites hads hsorted.2.2 f1
    h.totals hcls
  obtain ⟨d3, w, e3, f3, -, g3⟩ := limitSites_ok o.totals cls o.net.ads u total d2 o.net.sites hads hsorted.2.2 f2
    h.totals hpos hcls
  refine ⟨w, ?_, ?_⟩
  · unfold constrainCoverages
    simp only [bind, Except.bind, hc1, e0, e1, e2, e3]
    exact mapM_dictGet f3
  · intro s hs a ha hon
    rw [g3 s hs a ha hon, g2 s hs a ha hon]
    have : (o.net.ads.filter (fun a => OnSite a s)).map u
        = (o.net.ads.filter (fun a => OnSite a s)).map fun b => min (clamp (v b)) (total s) := by
      apply List.map_congr_left
      intro b hb
      obtain ⟨hb1, hb2⟩ := List.mem_filter.mp hb
      rw [g2 s hs b hb1 (by simpa using hb2), if_pos hb1]
    rw [this, if_pos ha]

theorem limited_sum [IsStrictOrderedRing K] (as : List Str) (v : Str → K) (t : K) (ht : 0 ≤ t) :
    (as.map fun a => limited (as.map v).sum t (v a)).sum = min (as.map v).sum t := by
  unfold limited
  by_cases h : t < (as.map v).sum
  · simp only [if_pos h]
    have hne : (as.map v).sum ≠ 0 := fun e => absurd h (not_lt.mpr (e ▸ ht))
    have : ∀ a, v a / (as.map v).sum * t = (t / (as.map v).sum) * v a := fun a => by ring
    simp only [this]
    rw [sum_map_mul_left', min_eq_right h.le]
    field_simp
  · simp only [if_neg h]
    rw [min_eq_left (not_lt.mp h)]

theorem limited_bounds [IsStrictOrderedRing K] {S t x : K} (ht : 0 ≤ t) (hx : 0 ≤ x) :
    0 ≤ limited S t x ∧ limited S t x ≤ x := by
  unfold limited
  split
  · rename_i h
    have hS : 0 < S := lt_of_le_of_lt ht h
    refine ⟨by positivity, ?_⟩
    rw [div_mul_eq_mul_div, div_le_iff₀ hS]
    exact mul_le_mul_of_nonneg_left h.le hx
  · exact ⟨hx, le_refl x⟩

theorem clamp_bounds [IsStrictOrderedRing K] (x : K) : 0 ≤ clamp x ∧ clamp x ≤ 1 ∧ (0 ≤ x → x ≤ 1 → clamp x = x) := by
  unfold clamp
  have h01 : (0 : K) ≤ 1 := zero_le_one
  split
  · rename_i h; exact ⟨h01, le_refl _, fun _ h' => absurd h (not_lt.mpr h')⟩
  · rename_i h
    split
    · rename_i h2; exact ⟨le_refl _, h01, fun h' => absurd h2 (not_lt.mpr h')⟩
    · rename_i h2; exact ⟨not_lt.mp h2, not_lt.mp h, fun _ _ => rfl⟩

end Verif
