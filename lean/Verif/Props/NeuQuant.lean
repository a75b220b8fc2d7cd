import Verif.Lemmas.NeuQuant
import Verif.Lemmas.Dict
import Verif.Lemmas.Py
import Mathlib.Data.Nat.Prime.Basic
import Mathlib.Tactic.NormNum.Prime
import Mathlib.Data.List.Perm.Subperm
import Mathlib.Data.Nat.ModEq
import Mathlib.Data.Int.ModEq
/-
C117: the choice of colours for pictures.
-/
namespace Verif
open Dict

/-! ### One pixel -/

/-- The example: seven rows of grey, and a reddish pixel. -/
def exColourNet : QNet := ⟨[(0, 0, 0), (255, 255, 255), (9, 9, 9), (0, 0, 0), (60, 60, 60), (120, 120, 120), (180, 180, 180)], List.replicate 7 (1 / 7), List.replicate 7 0⟩

/-- **C117.** What is learnt from a pixel. When its colour is none of the three reserved ones, the row that wins is one of the others, with the least distance after its bias is taken off;
it goes the part `alpha / 1024` of its way to the colour. A row at a distance `d` from it, below the radius, goes the part `alpha / 1024 · (rad² - (d - 1)²) / rad²`. All other rows, and the three reserved ones, stay. -/
theorem C117_step {i alpha rad n : Nat} {c : QRow} {s : QNet} (hi : i ≠ 0) (hn : 4 ≤ n) (h1 : s.network.length = n) (h2 : s.freq.length = n) (h3 : s.bias.length = n)
    (h : c ∉ s.network.take 3) :
    ∃ s' j, qPixel i alpha rad c s = .ok s' ∧ BiasedRow c s j ∧ s'.network.length = n ∧
      (∀ (m : Nat) (p : QRow), s.network[m]? = some p → s'.network[m]? = some (
        if m = j then towards ((alpha : ℚ) / 1024) p c
        else if 3 ≤ m ∧ rowGap m j < rad then towards ((alpha : ℚ) / 1024 * ((rad : ℚ) ^ 2 - ((rowGap m j : ℚ) - 1) ^ 2) / (rad : ℚ) ^ 2) p c
        else p)) := by
  have ht : withBack i c s = s := by unfold withBack; rw [if_neg hi]
  have hsp : qSpecial c s = none := by
    unfold qSpecial
    rw [List.findIdx?_eq_none_iff]
    intro p hp
    simp only [decide_eq_false_iff_not]
    rintro rfl
    exact h hp
  obtain ⟨best, j, net', heq, _, _, _, hj, hlen, hget⟩ := qPixel_none (alpha := alpha) (rad := rad) ht hn h1 h2 h3 hsp
  refine ⟨_, j, heq, hj, hlen, ?_⟩
  intro m p hp
  dsimp only
  rw [hget, hp, Option.map_some]
  split_ifs with e1 e2
  · rw [towards_eq]
  · rw [towards_eq]
    unfold nearFactor
    rw [if_neg (by unfold rowGap; omega)]
    simp only [pow_two]
  · rw [qMove_zero]

example : ∃ s' j, qPixel 5 512 2 (200, 20, 20) exColourNet = .ok s' ∧ BiasedRow (200, 20, 20) exColourNet j :=
  let ⟨s', j, h1, h2, _⟩ := C117_step (i := 5) (alpha := 512) (rad := 2) (c := (200, 20, 20)) (s := exColourNet) (by decide) (by decide : 4 ≤ 7) rfl rfl rfl (by decide +kernel)
  ⟨s', j, h1, h2⟩

/-- A pixel of a reserved colour changes nothing. -/
theorem C117_reserved_colour {i alpha rad : Nat} {c : QRow} {s : QNet} (hi : i ≠ 0) (h : c ∈ s.network.take 3) : qPixel i alpha rad c s = .ok s := by
  have ht : withBack i c s = s := by unfold withBack; rw [if_neg hi]
  cases hsp : qSpecial c (withBack i c s) with
  | some j => rw [qPixel_some hsp, ht]
  | none => rw [ht] at hsp; exact absurd rfl (qSpecial_none hsp c h)

example : qPixel 5 512 2 (9, 9, 9) exColourNet = .ok exColourNet := C117_reserved_colour (by decide) (by decide +kernel)

/-- **C117.** No row ever moves away from the colour that is looked at. -/
theorem C117_closer {i alpha rad n : Nat} {c : QRow} {s s' : QNet} (hi : i ≠ 0) (ha : alpha ≤ 1024) (hn : 4 ≤ n) (h1 : s.network.length = n) (h2 : s.freq.length = n) (h3 : s.bias.length = n)
    (h : qPixel i alpha rad c s = .ok s') {m : Nat} {p : QRow} (hp : s.network[m]? = some p) :
    ∃ p', s'.network[m]? = some p' ∧ cityDist c p' ≤ cityDist c p := by
  by_cases hc : c ∈ s.network.take 3
  · rw [C117_reserved_colour hi hc] at h
    cases h
    exact ⟨p, hp, le_rfl⟩
  · obtain ⟨t, j, ht, hj, _, hget⟩ := C117_step (alpha := alpha) (rad := rad) hi hn h1 h2 h3 hc
    rw [h] at ht
    cases ht
    refine ⟨_, hget m p hp, ?_⟩
    have ha0 : (0 : ℚ) ≤ (alpha : ℚ) / 1024 := by positivity
    have ha1 : (alpha : ℚ) / 1024 ≤ 1 := by rw [div_le_one (by norm_num)]; exact_mod_cast ha
    have hmv : ∀ f : ℚ, 0 ≤ f → f ≤ 1 → cityDist c (towards f p c) ≤ cityDist c p := by
      intro f hf hf1
      rw [towards_eq, cityDist_eq, cityDist_eq, qDist_move hf1]
      nlinarith [qDist_nonneg c p]
    split_ifs with e1 e2
    · exact hmv _ ha0 ha1
    · have := nearFactor_mem ha0 e2.2
      unfold nearFactor at this
      rw [if_neg (by unfold rowGap; omega)] at this
      simp only [pow_two]
      exact hmv _ this.1 (this.2.trans ha1)
    · exact le_rfl

example : ∃ s' p', qPixel 5 512 2 (200, 20, 20) exColourNet = .ok s' ∧ s'.network[4]? = some p' ∧ cityDist (200, 20, 20) p' ≤ cityDist (200, 20, 20) (60, 60, 60) := by
  obtain ⟨s', j, h, _⟩ := C117_step (i := 5) (alpha := 512) (rad := 2) (c := (200, 20, 20)) (s := exColourNet) (by decide) (by decide : 4 ≤ 7) rfl rfl rfl (by decide +kernel)
  obtain ⟨p', h1, h2⟩ := C117_closer (m := 4) (by decide) (by decide) (by decide : 4 ≤ 7) rfl rfl rfl h rfl
  exact ⟨s', p', h, h1, h2⟩

/-! ### Frequencies and biases -/

/-- **C117.** A contest counts: each frequency keeps `1023/1024` of its value and the row nearest to the colour gets `1/1024` more. The sum of the frequencies so goes towards one. -/
theorem C117_counts {i alpha rad n : Nat} {c : QRow} {s : QNet} (hi : i ≠ 0) (hn : 4 ≤ n) (h1 : s.network.length = n) (h2 : s.freq.length = n) (h3 : s.bias.length = n)
    (h : c ∉ s.network.take 3) :
    ∃ s' best, qPixel i alpha rad c s = .ok s' ∧ NearestRow c s best ∧
      (∀ (m : Nat) (f b : ℚ), 3 ≤ m → s.freq[m]? = some f → s.bias[m]? = some b →
        s'.freq[m]? = some (1023 / 1024 * f + if m = best then 1 / 1024 else 0) ∧
        s'.bias[m]? = some (b + 1023 / 1024 * f - if m = best then 1 else 0)) ∧
      1 - (s'.freq.drop 3).sum = 1023 / 1024 * (1 - (s.freq.drop 3).sum) := by
  have ht : withBack i c s = s := by unfold withBack; rw [if_neg hi]
  have hsp : qSpecial c s = none := by
    unfold qSpecial
    rw [List.findIdx?_eq_none_iff]
    intro p hp
    simp only [decide_eq_false_iff_not]
    rintro rfl
    exact h hp
  obtain ⟨best, j, net', heq, hb, _, hbest, hj, hlen, hget⟩ := qPixel_none (alpha := alpha) (rad := rad) ht hn h1 h2 h3 hsp
  refine ⟨_, best, heq, hbest, ?_, ?_⟩
  · intro m f b hm hf hb
    dsimp only
    rw [freqAfter_get hm hf, biasAfter_get hm hf hb]
    refine ⟨?_, ?_⟩ <;> (congr 1; ring)
  · dsimp only
    rw [freqAfter_sum h2 hbest.1 hb]
    ring

example : ∃ s' best, qPixel 5 512 2 (200, 20, 20) exColourNet = .ok s' ∧ NearestRow (200, 20, 20) exColourNet best :=
  let ⟨s', j, h1, h2, _⟩ := C117_counts (i := 5) (alpha := 512) (rad := 2) (c := (200, 20, 20)) (s := exColourNet) (by decide) (by decide : 4 ≤ 7) rfl rfl rfl (by decide +kernel)
  ⟨s', j, h1, h2⟩

/-- The frequencies are parts of one and no bias is above what its comment says. -/
def Fair (n : Nat) (s : QNet) : Prop :=
  (∀ f ∈ s.freq.drop 3, 0 ≤ f) ∧ (s.freq.drop 3).sum ≤ 1 ∧
    ∀ (m : Nat) (f b : ℚ), 3 ≤ m → s.freq[m]? = some f → s.bias[m]? = some b → b ≤ 1024 * (1 / (n : ℚ) - f)

theorem fair_pixel {i alpha rad n : Nat} {c : QRow} {s s' : QNet} (hn : 4 ≤ n) (h1 : s.network.length = n) (h2 : s.freq.length = n) (h3 : s.bias.length = n)
    (hs : Fair n s) (h : qPixel i alpha rad c s = .ok s') : Fair n s' ∧ s'.network.length = n ∧ s'.freq.length = n ∧ s'.bias.length = n := by
  obtain ⟨t, ht⟩ : ∃ t : QNet, withBack i c s = t := ⟨_, rfl⟩
  have hfr : t.freq = s.freq ∧ t.bias = s.bias ∧ t.network.length = s.network.length := by
    rw [← ht]; unfold withBack; split_ifs <;> simp
  cases hsp : qSpecial c (withBack i c s) with
  | some j =>
    rw [qPixel_some hsp, ht] at h
    cases h
    refine ⟨?_, by rw [hfr.2.2, h1], by rw [hfr.1, h2], by rw [hfr.2.1, h3]⟩
    unfold Fair at hs ⊢
    rw [hfr.1, hfr.2.1]
    exact hs
  | none =>
    rw [ht] at hsp
    obtain ⟨best, j, net', heq, hb, _, hbest, hj, hlen, hget⟩ := qPixel_none (alpha := alpha) (rad := rad) ht hn (by rw [hfr.2.2, h1]) (by rw [hfr.1, h2]) (by rw [hfr.2.1, h3]) hsp
    rw [h] at heq
    cases heq
    have l2 : t.freq.length = n := by rw [hfr.1, h2]
    have l3 : t.bias.length = n := by rw [hfr.2.1, h3]
    refine ⟨⟨?_, ?_, ?_⟩, hlen, by simp [freqAfter, l2]; omega, by simp [biasAfter, l2, l3]; omega⟩
    · intro f hf
      obtain ⟨k, hk⟩ := List.mem_iff_getElem?.mp hf
      rw [List.getElem?_drop] at hk
      dsimp only at hk
      have hkn : 3 + k < t.freq.length := by
        have := (List.getElem?_eq_some_iff.mp hk).1
        simp [freqAfter] at this
        omega
      have hg := List.getElem?_eq_getElem hkn
      rw [freqAfter_get (by omega) hg] at hk
      cases hk
      have h0 : 0 ≤ t.freq[3 + k] := hs.1 _ (by
        rw [← hfr.1]
        exact List.mem_iff_getElem?.mpr ⟨k, by rw [List.getElem?_drop]; exact hg⟩)
      have : (0 : ℚ) ≤ if 3 + k = best then 1 / 1024 else 0 := by split_ifs <;> norm_num
      linarith
    · dsimp only
      rw [freqAfter_sum l2 hbest.1 hb, hfr.1]
      have := hs.2.1
      linarith
    · intro m f b hm hf hb'
      dsimp only at hf hb'
      have hmn : m < n := by
        have := (List.getElem?_eq_some_iff.mp hf).1
        simp [freqAfter] at this
        omega
      have g1 := List.getElem?_eq_getElem (l := t.freq) (i := m) (by omega)
      have g2 := List.getElem?_eq_getElem (l := t.bias) (i := m) (by omega)
      rw [freqAfter_get hm g1] at hf
      rw [biasAfter_get hm g1 g2] at hb'
      cases hf
      cases hb'
      have hle := hs.2.2 m _ _ hm (by rw [← hfr.1]; exact g1) (by rw [← hfr.2.1]; exact g2)
      have h0 : 0 ≤ t.freq[m]'(by omega) := hs.1 _ (by
        rw [← hfr.1]
        exact List.mem_iff_getElem?.mpr ⟨m - 3, by rw [List.getElem?_drop, show 3 + (m - 3) = m by omega]; exact g1⟩)
      split_ifs <;> linarith

theorem fair_learnFrom {n alphadec delta : Nat} (hn : 4 ≤ n) : ∀ (l : List QRow) (i alpha br : Nat) (s s' : QNet), s.network.length = n → s.freq.length = n → s.bias.length = n →
    Fair n s → learnFrom alphadec delta l i alpha br s = .ok s' → Fair n s'
  | [], i, alpha, br, s, s', _, _, _, hs, h => by cases h; exact hs
  | c :: l, i, alpha, br, s, s', h1, h2, h3, hs, h => by
    unfold learnFrom at h
    cases hp : qPixel i alpha (qRadius br) c s with
    | error e => rw [hp] at h; cases h
    | ok t =>
      rw [hp] at h
      obtain ⟨g, g1, g2, g3⟩ := fair_pixel hn h1 h2 h3 hs hp
      dsimp only at h
      split_ifs at h
      · exact fair_learnFrom hn l _ _ _ _ _ g1 g2 g3 g h
      · exact fair_learnFrom hn l _ _ _ _ _ g1 g2 g3 g h

/-- **C117.** After any learning the frequencies are not negative and sum up to at most one, and the bias of a row is never above `1024 · (1/n - frequency)`: a row that wins too often is never helped.
The comment claims equality (`C117_bias_refuted`). -/
theorem C117_bias_partial {junk : QRow} {pixels : List QRow} {f n : Nat} {s s' : QNet} (hp : pixels ≠ []) (hf : f ≠ 0) (hn : 4 ≤ n) (h0 : qSetUp n junk = .ok s) (h : qLearn pixels f s = .ok s') :
    (∀ x ∈ s'.freq.drop 3, 0 ≤ x) ∧ (s'.freq.drop 3).sum ≤ 1 ∧
    ∀ (m : Nat) (x b : ℚ), 3 ≤ m → s'.freq[m]? = some x → s'.bias[m]? = some b → b ≤ 1024 * (1 / (n : ℚ) - x) := by
  rw [qLearn_eq hp hf] at h
  unfold qSetUp at h0
  rw [if_neg (by omega)] at h0
  cases h0
  refine fair_learnFrom hn _ _ _ _ _ _ (by simp; omega) (by simp) (by simp) ⟨?_, ?_, ?_⟩ h
  · intro x hx
    have := List.eq_of_mem_replicate (List.mem_of_mem_drop hx)
    rw [this]; positivity
  · dsimp only
    rw [List.drop_replicate, List.sum_replicate, nsmul_eq_mul, mul_one_div, div_le_one (by exact_mod_cast (by omega : 0 < n))]
    exact_mod_cast (by omega : n - 3 ≤ n)
  · intro m x b _ hx hb
    have e1 := List.eq_of_mem_replicate (List.mem_of_getElem? hx)
    have e2 := List.eq_of_mem_replicate (List.mem_of_getElem? hb)
    rw [e1, e2]; simp

/-- **C117, not as claimed.** "bias[i] = GAMMA*((1/NETSIZE)-freq[i])" holds at the start and is wrong after the first contest, for every number of colours and every pixel: the frequencies are scaled before they are added to the biases. -/
theorem C117_bias_refuted {n : Nat} (hn : 4 ≤ n) (junk c : QRow) : ∃ s, qSetUp n junk = .ok s ∧
    (∀ (m : Nat) (f b : ℚ), s.freq[m]? = some f → s.bias[m]? = some b → b = 1024 * (1 / (n : ℚ) - f)) ∧
    ∃ j s', qContest c s = .ok (j, s') ∧ ∃ (m : Nat) (f b : ℚ), s'.freq[m]? = some f ∧ s'.bias[m]? = some b ∧ b ≠ 1024 * (1 / (n : ℚ) - f) := by
  have hs : qSetUp n junk = .ok ⟨[(0, 0, 0), (255, 255, 255), junk] ++ (List.range (n - 3)).map (fun i : Nat => (255 * (i : ℚ) / ((n - 3 : Nat) : ℚ), 255 * (i : ℚ) / ((n - 3 : Nat) : ℚ), 255 * (i : ℚ) / ((n - 3 : Nat) : ℚ))),
      List.replicate n (1 / (n : ℚ)), List.replicate n 0⟩ := by
    unfold qSetUp; rw [if_neg (by omega)]
  refine ⟨_, hs, ?_, ?_⟩
  · intro m f b hf hb
    have e1 := List.eq_of_mem_replicate (List.mem_of_getElem? hf)
    have e2 := List.eq_of_mem_replicate (List.mem_of_getElem? hb)
    rw [e1, e2]; simp
  · obtain ⟨best, j, hc, hb3, hbn, _⟩ := qContest_spec c ⟨[(0, 0, 0), (255, 255, 255), junk] ++ (List.range (n - 3)).map (fun i : Nat => (255 * (i : ℚ) / ((n - 3 : Nat) : ℚ), 255 * (i : ℚ) / ((n - 3 : Nat) : ℚ), 255 * (i : ℚ) / ((n - 3 : Nat) : ℚ))),
      List.replicate n (1 / (n : ℚ)), List.replicate n 0⟩ hn (by simp; omega) (by simp) (by simp)
    refine ⟨j, _, hc, best, _, _, freqAfter_get hb3 (by simp [hbn]; rfl), biasAfter_get hb3 (by simp [hbn]; rfl) (by simp [hbn]; rfl), ?_⟩
    simp only [if_true]
    have : (0 : ℚ) < 1 / n := by
      have : (0 : ℚ) < n := by exact_mod_cast (by omega : 0 < n)
      positivity
    have e : (n : ℚ)⁻¹ = 1 / n := by simp
    intro hh
    try rw [e] at hh
    linarith

/-! ### Which pixels -/

theorem coprime_step {len : Nat} (h : ¬ (499 * 491 * 487 * 503) ∣ len) : Nat.Coprime (qStep len) len := by
  unfold qStep
  have key : ∀ p : Nat, p.Prime → len % p ≠ 0 → Nat.Coprime p len := fun p hp hl =>
    (Nat.Prime.coprime_iff_not_dvd hp).mpr fun hd => hl (Nat.mod_eq_zero_of_dvd hd)
  split_ifs with h1 h2 h3
  · exact key 499 (by norm_num) h1
  · exact key 491 (by norm_num) h2
  · exact key 487 (by norm_num) h3
  · refine key 503 (by norm_num) fun h4 => h ?_
    rw [not_not] at h1 h2 h3
    have d1 := Nat.dvd_of_mod_eq_zero h1
    have d2 := Nat.dvd_of_mod_eq_zero h2
    have d3 := Nat.dvd_of_mod_eq_zero h3
    have d4 := Nat.dvd_of_mod_eq_zero h4
    exact Nat.Coprime.mul_dvd_of_dvd_of_dvd (by decide) (Nat.Coprime.mul_dvd_of_dvd_of_dvd (by decide) (Nat.Coprime.mul_dvd_of_dvd_of_dvd (by decide) d1 d2) d3) d4

theorem places_nodup {len : Nat} (h : Nat.Coprime (qStep len) len) {k : Nat} (hk : k ≤ len) : ((List.range k).map fun j : Nat => (j * qStep len) % len).Nodup := by
  rw [List.nodup_map_iff_inj_on List.nodup_range]
  intro a ha b hb hab
  rw [List.mem_range] at ha hb
  have hab' : a * qStep len ≡ b * qStep len [MOD len] := hab
  have := Nat.ModEq.cancel_right_of_coprime (Nat.Coprime.symm h) hab'
  exact Nat.ModEq.eq_of_lt_of_lt this (by omega) (by omega)

/-- **C117.** The learning looks at `pixels / samplefac` pixels, one after the other, at the places `0, step, 2·step, …` modulo the number of pixels. No pixel is looked at twice (for pictures whose size is not a multiple of all four primes). -/
theorem C117_samples {pixels : List QRow} (hp : pixels ≠ []) {f : Nat} (hf : f ≠ 0) (hd : ¬ (499 * 491 * 487 * 503) ∣ pixels.length) (s : QNet) :
    qLearn pixels f s = learnFrom (30 + (f - 1) / 3) (pixels.length / f / 100) (sampled pixels (qStep pixels.length) (pixels.length / f)) 0 1024 (s.network.length / 8 * 64) s ∧
    ((List.range (pixels.length / f)).map fun j : Nat => (j * qStep pixels.length) % pixels.length).Nodup ∧
    (sampled pixels (qStep pixels.length) (pixels.length / f)).length = pixels.length / f := by
  refine ⟨qLearn_eq hp hf s, places_nodup (coprime_step hd) (Nat.div_le_self _ _), ?_⟩
  unfold sampled
  have hpos : 0 < pixels.length := List.length_pos_iff.mpr hp
  have : ∀ k : Nat, ((List.range k).filterMap fun j : Nat => pixels[(j * qStep pixels.length) % pixels.length]?) = (List.range k).map fun j : Nat => pixels[(j * qStep pixels.length) % pixels.length]'(Nat.mod_lt _ hpos) := by
    intro k
    rw [← List.filterMap_eq_map]
    apply List.filterMap_congr
    intro j _
    exact List.getElem?_eq_getElem (Nat.mod_lt _ hpos)
  rw [this]
  simp

example : ¬ (499 * 491 * 487 * 503) ∣ (List.replicate 40000 ((0, 0, 0) : QRow)).length := by rw [List.length_replicate]; decide

/-- **C117.** With `samplefac` 1, "the highest quality", every pixel is looked at exactly once. -/
theorem C117_every_pixel {pixels : List QRow} (hp : pixels ≠ []) (hd : ¬ (499 * 491 * 487 * 503) ∣ pixels.length) :
    (sampled pixels (qStep pixels.length) (pixels.length / 1)).Perm pixels := by
  have hpos : 0 < pixels.length := List.length_pos_iff.mpr hp
  have hnd := places_nodup (coprime_step hd) (le_refl pixels.length)
  have hperm : ((List.range pixels.length).map fun j : Nat => (j * qStep pixels.length) % pixels.length).Perm (List.range pixels.length) := by
    refine List.Subperm.perm_of_length_le (List.subperm_of_subset hnd ?_) (by simp)
    intro x hx
    obtain ⟨j, _, rfl⟩ := List.mem_map.mp hx
    exact List.mem_range.mpr (Nat.mod_lt _ hpos)
  have e1 : sampled pixels (qStep pixels.length) (pixels.length / 1) = ((List.range pixels.length).map fun j : Nat => (j * qStep pixels.length) % pixels.length).filterMap (fun j : Nat => pixels[j]?) := by
    unfold sampled
    rw [List.filterMap_map, Nat.div_one]
    rfl
  have e2 : (List.range pixels.length).filterMap (fun j : Nat => pixels[j]?) = pixels := by
    apply List.ext_getElem?
    intro m
    have : (List.range pixels.length).filterMap (fun j : Nat => pixels[j]?) = (List.finRange pixels.length).map fun j => pixels[j] := by
      rw [← List.filterMap_eq_map, ← List.map_coe_finRange_eq_range, List.filterMap_map]
      apply List.filterMap_congr
      intro j _
      simp
    rw [this]
    by_cases hm : m < pixels.length
    · simp [hm]
    · simp [hm]
  rw [e1]
  exact (hperm.filterMap _).trans (by rw [e2])

/-! ### The map of colours -/

theorem pixelRow_bytes {p : Rgba} (h : p.IsBytes) : pixelRow p = ((p.1 : ℚ), (p.2.1 : ℚ), (p.2.2.1 : ℚ)) := by
  obtain ⟨r, g, b, a⟩ := p
  obtain ⟨h1, h2, h3, h4⟩ := h
  dsimp only at h1 h2 h3 h4
  unfold pixelRow
  dsimp only
  have e1 : (r + g * 256 + b * 65536 + a * 16777216) % 256 = r := by omega
  have e2 : (r + g * 256 + b * 65536 + a * 16777216) / 256 % 256 = g := by omega
  have e3 : (r + g * 256 + b * 65536 + a * 16777216) / 65536 % 256 = b := by omega
  rw [e1, e2, e3]

theorem pixelRow_inByte {p : Rgba} (h : p.IsBytes) : InByte (pixelRow p) := by
  rw [pixelRow_bytes h]
  obtain ⟨h1, h2, h3, h4⟩ := h
  have e1 : (p.1 : ℚ) ≤ 255 := by exact_mod_cast (by omega : p.1 ≤ 255)
  have e2 : (p.2.1 : ℚ) ≤ 255 := by exact_mod_cast (by omega : p.2.1 ≤ 255)
  have e3 : (p.2.2.1 : ℚ) ≤ 255 := by exact_mod_cast (by omega : p.2.2.1 ≤ 255)
  exact ⟨⟨by positivity, e1⟩, ⟨by positivity, e2⟩, ⟨by positivity, e3⟩⟩

theorem sampled_cons {α : Type} {a : α} {l : List α} {step k : Nat} (hk : k ≠ 0) : ∃ l', sampled (a :: l) step k = a :: l' ∧ ∀ x ∈ a :: l', x ∈ a :: l := by
  obtain ⟨k, rfl⟩ := Nat.exists_eq_succ_of_ne_zero hk
  refine ⟨((List.range k).map Nat.succ).filterMap fun j : Nat => (a :: l)[(j * step) % (a :: l).length]?, ?_, ?_⟩
  · unfold sampled
    rw [Nat.succ_eq_add_one, List.range_succ_eq_map, List.filterMap_cons]
    simp only [Nat.zero_mul, Nat.zero_mod, List.getElem?_cons_zero]
  · intro x hx
    rcases List.mem_cons.mp hx with rfl | hx
    · simp
    · obtain ⟨j, _, hj⟩ := List.mem_filterMap.mp hx
      exact List.mem_of_getElem? hj

/-- The whole of the learning. -/
theorem learned {junk : QRow} {a : Rgba} {l : List Rgba} (hb : ∀ p ∈ a :: l, p.IsBytes) {f n : Nat} (hf : f ≠ 0) (hn : 4 ≤ n) (hs : 100 ≤ (a :: l).length / f) :
    ∃ s s', qSetUp n junk = .ok s ∧ qLearn ((a :: l).map pixelRow) f s = .ok s' ∧ QFit n (pixelRow a) s' := by
  obtain ⟨s, h1, h2, h3⟩ := qSetUp_ok (by omega : 3 ≤ n) junk (pixelRow a)
  have hk : ((a :: l).map pixelRow).length / f ≠ 0 := by rw [List.length_map]; omega
  have hd : ((a :: l).map pixelRow).length / f / 100 ≠ 0 := by rw [List.length_map]; omega
  obtain ⟨l', hl, hmem⟩ := sampled_cons (a := pixelRow a) (l := l.map pixelRow) (step := qStep ((a :: l).map pixelRow).length) hk
  obtain ⟨s', h4, h5⟩ := learnFrom_first (alphadec := 30 + (f - 1) / 3) (br := s.network.length / 8 * 64) (alpha := 1024) (l := l') hn hd (c := pixelRow a) (by
    intro x hx
    have := hmem x hx
    rw [← List.map_cons] at this
    obtain ⟨p, hp, rfl⟩ := List.mem_map.mp this
    exact pixelRow_inByte (hb p hp)) (le_refl _) h3
  refine ⟨s, s', h1, ?_, h5⟩
  rw [qLearn_eq (by simp) hf, List.map_cons, ← h4]
  rw [List.map_cons] at hl
  rw [hl]
  rfl

/-- **C117.** A picture with at least 503 pixels, all made of bytes, of which at least 100 are looked at, gets a map with the number of colours that was asked for. All entries are bytes; black, white and the colour of the first pixel are in it.
The rows are sorted by green, each number occurs once, and the index gives for each green the middle of the places of its rows. -/
theorem C117_map (junk : QRow) {a : Rgba} {l : List Rgba} (hl : 503 ≤ (a :: l).length) (hb : ∀ p ∈ a :: l, p.IsBytes) {f n : Nat} (hf : f ≠ 0) (hn : 4 ≤ n) (hs : 100 ≤ (a :: l).length / f) :
    ∃ cm idx, neuQuant junk (a :: l) true f n = .ok (cm, idx) ∧ cm.length = n ∧ (∀ r ∈ cm, r.1 ≤ 255 ∧ r.2.1 ≤ 255 ∧ r.2.2.1 ≤ 255) ∧
      (∀ c ∈ [(0, 0, 0), (255, 255, 255), a.colour], c ∈ cm.map CRow.colour) ∧
      cm.Pairwise (fun a b => a.2.1 ≤ b.2.1) ∧ (cm.map fun r => r.2.2.2).Perm (List.range n) ∧
      idx.length = 256 ∧ ∀ g, g < 256 → idx[g]? = some (some (middle cm g)) := by
  obtain ⟨s, s', h1, h2, h3⟩ := learned (junk := junk) hb hf hn hs
  have hbyte : ∀ r ∈ qFix s', r.1 ≤ 255 ∧ r.2.1 ≤ 255 ∧ r.2.2.1 ≤ 255 := by
    intro r hr
    obtain ⟨p, _, e1, e2, e3⟩ := mem_qFix.mp hr
    rw [e1, e2, e3]
    exact ⟨qByte_le _, qByte_le _, qByte_le _⟩
  have hlen : (qFix s').length = n := by unfold qFix; simp [h3.len]
  obtain ⟨cm, idx, k1, k2, k3, k4, k5⟩ := qIndex_spec (cm := qFix s') (by intro h; rw [h] at hlen; simp at hlen; omega) (fun r hr => by have := (hbyte r hr).2.1; omega)
  refine ⟨cm, idx, ?_, by rw [k2.length_eq, hlen], fun r hr => hbyte r (k2.subset hr), ?_, k3, ?_, k4, ?_⟩
  · unfold neuQuant
    rw [if_neg (by omega), if_neg (by simp), h1]
    show (qLearn ((a :: l).map pixelRow) f s >>= _) = _
    rw [h2]
    exact k1
  · have hget : ∀ (k : Nat) (p : QRow) (x : Nat × Nat × Nat), s'.network[k]? = some p → x = (qByte p.1, qByte p.2.1, qByte p.2.2) → x ∈ cm.map CRow.colour := by
      intro k p x hk hx
      refine List.mem_map.mpr ⟨(qByte p.1, qByte p.2.1, qByte p.2.2, k), k2.symm.subset (mem_qFix.mpr ⟨p, hk, rfl, rfl, rfl⟩), hx.symm⟩
    have q0 : qByte 0 = 0 := by have := qByte_nat (k := 0) (by omega); simpa using this
    have q1 : qByte 255 = 255 := by have := qByte_nat (k := 255) (by omega); simpa using this
    intro c hc
    simp only [List.mem_cons, List.not_mem_nil, or_false] at hc
    rcases hc with rfl | rfl | rfl
    · exact hget 0 _ _ h3.black (by simp [q0])
    · exact hget 1 _ _ h3.white (by simp [q1])
    · refine hget 2 _ _ h3.back ?_
      have ha := hb a (by simp)
      rw [pixelRow_bytes ha]
      obtain ⟨x1, x2, x3, _⟩ := ha
      dsimp only
      rw [qByte_nat (by omega), qByte_nat (by omega), qByte_nat (by omega)]
      rfl
  · refine (k2.map _).trans ?_
    have : (qFix s').map (fun r => r.2.2.2) = List.range n := by
      unfold qFix
      rw [List.map_map]
      have : ((fun r : CRow => r.2.2.2) ∘ fun x : QRow × Nat => (qByte x.1.1, qByte x.1.2.1, qByte x.1.2.2, x.2)) = Prod.snd := rfl
      rw [this, ← h3.len, List.zipIdx_map_snd, List.range_eq_range']
    rw [this]
  · intro g hg
    rw [k5 g hg]
    unfold middle
    rw [below_perm k2, below_perm k2, k2.length_eq]

/-- A picture of 200 by 200 pixels, all of one colour, with the settings the files are written with. -/
example : ∃ cm idx, neuQuant (0, 0, 0) ((10, 20, 30, 255) :: List.replicate 39999 (10, 20, 30, 255)) true 10 256 = .ok (cm, idx) ∧ cm.length = 256 :=
  let ⟨cm, idx, h1, h2, _⟩ := C117_map (0, 0, 0) (by rw [List.length_cons, List.length_replicate]; decide) (by
    intro p hp
    rcases List.mem_cons.mp hp with rfl | hp
    · exact ⟨by decide, by decide, by decide, by decide⟩
    · rw [List.eq_of_mem_replicate hp]; exact ⟨by decide, by decide, by decide, by decide⟩) (by decide) (by decide) (by rw [List.length_cons, List.length_replicate]; decide)
  ⟨cm, idx, h1, h2⟩

/-- **C117.** The rounding: while the network learns, its numbers stay between 0 and 255, and each entry of the map differs from its number by at most a half. -/
theorem C117_rounding {junk : QRow} {a : Rgba} {l : List Rgba} (hb : ∀ p ∈ a :: l, p.IsBytes) {f n : Nat} (hf : f ≠ 0) (hn : 4 ≤ n) (hs : 100 ≤ (a :: l).length / f) :
    ∃ s s', qSetUp n junk = .ok s ∧ qLearn ((a :: l).map pixelRow) f s = .ok s' ∧ s'.network.length = n ∧ ∀ (m : Nat) (p : QRow), s'.network[m]? = some p → InByte p ∧
      ∃ r ∈ qFix s', r.2.2.2 = m ∧ |(r.1 : ℚ) - p.1| ≤ 1 / 2 ∧ |(r.2.1 : ℚ) - p.2.1| ≤ 1 / 2 ∧ |(r.2.2.1 : ℚ) - p.2.2| ≤ 1 / 2 := by
  obtain ⟨s, s', h1, h2, h3⟩ := learned (junk := junk) hb hf hn hs
  refine ⟨s, s', h1, h2, h3.len, ?_⟩
  intro m p hp
  have hin : InByte p := by
    rcases Nat.lt_or_ge m 3 with hm | hm
    · have : m = 0 ∨ m = 1 ∨ m = 2 := by omega
      rcases this with rfl | rfl | rfl
      · rw [h3.black] at hp; cases hp; unfold InByte; norm_num
      · rw [h3.white] at hp; cases hp; unfold InByte; norm_num
      · rw [h3.back] at hp; cases hp; exact pixelRow_inByte (hb a (by simp))
    · exact h3.bytes m p hm hp
  exact ⟨hin, (qByte p.1, qByte p.2.1, qByte p.2.2, m), mem_qFix.mpr ⟨p, hp, rfl, rfl, rfl⟩, rfl, qByte_near hin.1.1 hin.1.2, qByte_near hin.2.1.1 hin.2.1.2, qByte_near hin.2.2.1 hin.2.2.2⟩

example : ∃ s s', qSetUp 256 (0, 0, 0) = .ok s ∧ qLearn (((10, 20, 30, 255) :: List.replicate 39999 (10, 20, 30, 255)).map pixelRow) 10 s = .ok s' ∧ (s'.freq.drop 3).sum ≤ 1 := by
  obtain ⟨s, s', h1, h2, _⟩ := C117_rounding (junk := (0, 0, 0)) (a := (10, 20, 30, 255)) (l := List.replicate 39999 (10, 20, 30, 255)) (f := 10) (n := 256) (by
    intro p hp
    rcases List.mem_cons.mp hp with rfl | hp
    · exact ⟨by decide, by decide, by decide, by decide⟩
    · rw [List.eq_of_mem_replicate hp]; exact ⟨by decide, by decide, by decide, by decide⟩) (by decide) (by decide) (by rw [List.length_cons, List.length_replicate]; decide)
  exact ⟨s, s', h1, h2, (C117_bias_partial (List.cons_ne_nil _ _) (by decide) (by decide) h1 h2).2.1⟩

/-- **C117, not for every picture that passes the check.** The constructor accepts pictures of at least 503 pixels. When fewer than 100 of them are looked at, it raises `ZeroDivisionError`: with the usual `samplefac` of 10, for all pictures of 503 to 999 pixels. -/
theorem C117_small_refuted (junk : QRow) {a : Rgba} {l : List Rgba} (hl : 503 ≤ (a :: l).length) {f n : Nat} (hn : 3 ≤ n) (h1 : (a :: l).length / f ≠ 0) (h2 : (a :: l).length / f < 100) :
    neuQuant junk (a :: l) true f n = .error .ZeroDivisionError := by
  have hf : f ≠ 0 := by rintro rfl; simp at h1
  obtain ⟨s, k1, k2, k3⟩ := qSetUp_ok hn junk (pixelRow a)
  have hk : ((a :: l).map pixelRow).length / f ≠ 0 := by rw [List.length_map]; exact h1
  have hd : ((a :: l).map pixelRow).length / f / 100 = 0 := by rw [List.length_map]; exact Nat.div_eq_of_lt h2
  obtain ⟨l', hl', hmem⟩ := sampled_cons (a := pixelRow a) (l := l.map pixelRow) (step := qStep ((a :: l).map pixelRow).length) hk
  have hlearn : qLearn ((a :: l).map pixelRow) f s = .error .ZeroDivisionError := by
    rw [qLearn_eq (by simp) hf, hd]
    rw [List.map_cons] at hl' ⊢
    rw [hl']
    unfold learnFrom
    have hsp : ∃ j, qSpecial (pixelRow a) (withBack 0 (pixelRow a) s) = some j := by
      cases hq : qSpecial (pixelRow a) (withBack 0 (pixelRow a) s) with
      | some j => exact ⟨j, rfl⟩
      | none =>
        refine absurd rfl (qSpecial_none hq (pixelRow a) (List.mem_iff_getElem?.mpr ⟨2, ?_⟩))
        rw [List.getElem?_take, if_pos (by omega)]
        exact k3.back
    obtain ⟨j, hj⟩ := hsp
    rw [qPixel_some hj]
    rfl
  unfold neuQuant
  rw [if_neg (by omega), if_neg (by simp), k1]
  show (qLearn ((a :: l).map pixelRow) f s >>= _) = _
  rw [hlearn]
  rfl

example : neuQuant (0, 0, 0) ((10, 20, 30, 255) :: List.replicate 624 (10, 20, 30, 255)) true 10 256 = .error .ZeroDivisionError :=
  C117_small_refuted _ (by rw [List.length_cons, List.length_replicate]; decide) (by decide) (by rw [List.length_cons, List.length_replicate]; decide) (by rw [List.length_cons, List.length_replicate]; decide)

/-- What the constructor refuses: pictures that are too small or of another mode, fewer than three colours, and a `samplefac` of zero. -/
theorem C117_refused (junk : QRow) (pixels : List Rgba) (rgba : Bool) (f n : Nat) :
    (pixels.length < 503 ∨ rgba = false → neuQuant junk pixels rgba f n = .error .IOError) ∧
    (503 ≤ pixels.length → n < 3 → neuQuant junk pixels true f n = .error .IndexError) ∧
    (503 ≤ pixels.length → 3 ≤ n → neuQuant junk pixels true 0 n = .error .ZeroDivisionError) := by
  refine ⟨?_, ?_, ?_⟩
  · rintro (h | rfl)
    · unfold neuQuant; rw [if_pos h]
    · unfold neuQuant
      by_cases h : pixels.length < 503
      · rw [if_pos h]
      · rw [if_neg h, if_pos (by simp)]
  · intro h hn
    unfold neuQuant qSetUp
    rw [if_neg (by omega), if_neg (by simp), if_pos hn]
    rfl
  · intro h hn
    unfold neuQuant qSetUp
    rw [if_neg (by omega), if_neg (by simp), if_neg (by omega)]
    rfl

/-! ### The colour of a pixel in the picture -/

theorem sqDist_eq (c : Nat × Nat × Nat) (r : CRow) : sqDist c r = apart r.colour c := by
  unfold sqDist apart CRow.colour
  simp only [pow_two]

/-- **C117.** A colour is converted to a colour of the map; none of the map is nearer; of several that are as near, the first one is taken. -/
theorem C117_nearest {cm : List CRow} (h : cm ≠ []) (c : Nat × Nat × Nat) : ∃ (i : Nat) (r : CRow), qSearch cm c = .ok i ∧ cm[i]? = some r ∧ qConvert cm c = .ok r.colour ∧
    (∀ q ∈ cm, apart r.colour c ≤ apart q.colour c) ∧ ∀ (j : Nat) (q : CRow), j < i → cm[j]? = some q → apart r.colour c < apart q.colour c := by
  obtain ⟨i, y, h1, h2, h3, h4⟩ := argmin_spec (l := cm.map (sqDist c)) (by simpa using h)
  rw [List.getElem?_map] at h2
  obtain ⟨r, hr, rfl⟩ := Option.map_eq_some_iff.mp h2
  refine ⟨i, r, h1, hr, ?_, ?_, ?_⟩
  · unfold qConvert
    show (qSearch cm c >>= _) = _
    have : qSearch cm c = .ok i := h1
    rw [this]
    dsimp only [bind, Except.bind]
    rw [hr]
    rfl
  · intro q hq
    rw [← sqDist_eq, ← sqDist_eq]
    exact h3 _ (List.mem_map.mpr ⟨q, hq, rfl⟩)
  · intro j q hj hq
    rw [← sqDist_eq, ← sqDist_eq]
    exact h4 j _ hj (by rw [List.getElem?_map, hq]; rfl)

/-- The example map. -/
def exColours : List CRow := [(0, 0, 0, 0), (200, 20, 20, 3), (90, 90, 90, 2), (255, 255, 255, 1)]

example : qConvert exColours (180, 30, 25) = .ok (200, 20, 20) := by decide +kernel

theorem apart_zero {a b : Nat × Nat × Nat} (h : apart a b ≤ 0) : a = b := by
  unfold apart at h
  have h1 := sq_nonneg ((a.1 : Int) - b.1)
  have h2 := sq_nonneg ((a.2.1 : Int) - b.2.1)
  have h3 := sq_nonneg ((a.2.2 : Int) - b.2.2)
  have e1 : ((a.1 : Int) - b.1) = 0 := pow_eq_zero_iff (two_ne_zero) |>.mp (by linarith)
  have e2 : ((a.2.1 : Int) - b.2.1) = 0 := pow_eq_zero_iff (two_ne_zero) |>.mp (by linarith)
  have e3 : ((a.2.2 : Int) - b.2.2) = 0 := pow_eq_zero_iff (two_ne_zero) |>.mp (by linarith)
  ext <;> omega

/-- **C117.** The colours of the map are left as they are: black, white and the background are drawn exactly, and to convert twice is the same as to convert once. -/
theorem C117_exact {cm : List CRow} {c : Nat × Nat × Nat} : (c ∈ cm.map CRow.colour → qConvert cm c = .ok c) ∧
    ∀ d, qConvert cm c = .ok d → d ∈ cm.map CRow.colour ∧ qConvert cm d = .ok d := by
  have key : ∀ c, c ∈ cm.map CRow.colour → qConvert cm c = .ok c := by
    intro c hc
    obtain ⟨r, hr, rfl⟩ := List.mem_map.mp hc
    obtain ⟨i, q, _, _, h3, h4, _⟩ := C117_nearest (cm := cm) (by rintro rfl; simp at hr) r.colour
    have := h4 r hr
    have hz : apart r.colour r.colour = 0 := by unfold apart; simp
    rw [hz] at this
    rw [h3, apart_zero this]
  refine ⟨key c, ?_⟩
  intro d hd
  have hne : cm ≠ [] := by rintro rfl; cases hd
  obtain ⟨i, q, _, h2, h3, _⟩ := C117_nearest hne c
  rw [h3] at hd
  cases hd
  have hm : q.colour ∈ cm.map CRow.colour := List.mem_map.mpr ⟨q, List.mem_of_getElem? h2, rfl⟩
  exact ⟨hm, key _ hm⟩

example : qConvert exColours (90, 90, 90) = .ok (90, 90, 90) := C117_exact.1 (by decide)

theorem qPixels_memo {cm : List CRow} : ∀ (l : List Rgba) (memo : Dict (Nat × Nat × Nat) (Nat × Nat × Nat)),
    (∀ k v, get? memo k = some v → qConvert cm k = .ok v) →
    qPixels cm memo l = l.mapM fun p => (qConvert cm p.colour).map fun v => ((v.1, v.2.1, v.2.2, p.2.2.2) : Rgba)
  | [], memo, _ => rfl
  | p :: l, memo, h => by
    rw [List.mapM_cons]
    unfold qPixels
    dsimp only
    cases hm : get? memo (p.1, p.2.1, p.2.2.1) with
    | some v =>
      have hv := h _ _ hm
      have hv' : qConvert cm p.colour = .ok v := hv
      rw [hv']
      dsimp only [bind, Except.bind, pure, Except.pure, Except.map]
      rw [qPixels_memo l _ (fun k w hk => by
        rw [get?_set] at hk
        split_ifs at hk with e
        · cases hk; rw [← e]; exact hv
        · exact h k w hk)]
      rfl
    | none =>
      cases hc : qConvert cm (p.1, p.2.1, p.2.2.1) with
      | error e =>
        have hv' : qConvert cm p.colour = .error e := hc
        rw [hv']
        rfl
      | ok v =>
        have hv' : qConvert cm p.colour = .ok v := hc
        rw [hv']
        dsimp only [bind, Except.bind, pure, Except.pure, Except.map]
        rw [qPixels_memo l _ (fun k w hk => by
          rw [get?_set] at hk
          split_ifs at hk with e
          · cases hk; rw [← e]; exact hc
          · exact h k w hk)]
        rfl

/-- **C117.** The picture: each pixel gets the nearest colour of the map, whatever was drawn before it, and keeps its alpha. -/
theorem C117_picture {cm : List CRow} (h : cm ≠ []) (l : List Rgba) : ∃ l', qPixels cm [] l = .ok l' ∧ l'.length = l.length ∧
    ∀ (i : Nat) (p : Rgba), l[i]? = some p → ∃ r ∈ cm, l'[i]? = some (r.1, r.2.1, r.2.2.1, p.2.2.2) ∧ ∀ q ∈ cm, apart r.colour p.colour ≤ apart q.colour p.colour := by
  rw [qPixels_memo l [] (fun k v hk => by cases hk)]
  induction l with
  | nil => exact ⟨[], rfl, rfl, fun i p hp => by simp at hp⟩
  | cons a l ih =>
    obtain ⟨l', h1, h2, h3⟩ := ih
    obtain ⟨i, r, _, hr, hc, hmin, _⟩ := C117_nearest h a.colour
    refine ⟨(r.1, r.2.1, r.2.2.1, a.2.2.2) :: l', ?_, by simp [h2], ?_⟩
    · rw [List.mapM_cons, hc, h1]
      rfl
    · intro k p hp
      cases k with
      | zero => simp at hp; subst hp; exact ⟨r, List.mem_of_getElem? hr, by simp, hmin⟩
      | succ k => simpa using h3 k p (by simpa using hp)

example : qPixels exColours [] [(180, 30, 25, 255), (180, 30, 25, 0), (1, 2, 3, 255)] = .ok [(200, 20, 20, 255), (200, 20, 20, 0), (0, 0, 0, 255)] := by decide +kernel

/-- **C117.** The palette of at most 256 colours has 768 numbers: the three of each row in order, and zeros. -/
theorem C117_palette {cm : List CRow} (h : cm.length ≤ 256) : (qPalette cm).length = 768 ∧
    ∀ (i : Nat), i < 256 → [(qPalette cm)[3 * i]?, (qPalette cm)[3 * i + 1]?, (qPalette cm)[3 * i + 2]?] =
      match cm[i]? with | some r => [some r.1, some r.2.1, some r.2.2.1] | none => [some 0, some 0, some 0] := by
  have hl : ∀ cm : List CRow, (cm.flatMap fun r => [r.1, r.2.1, r.2.2.1]).length = 3 * cm.length := by
    intro cm
    induction cm with
    | nil => rfl
    | cons a cm ih => rw [List.flatMap_cons, List.length_append, ih, List.length_cons]; simp; omega
  refine ⟨by unfold qPalette; rw [List.length_append, hl, List.length_replicate]; omega, ?_⟩
  have hg : ∀ (cm : List CRow) (i : Nat) (r : CRow) (z : List Nat), cm[i]? = some r → (cm.flatMap (fun r => [r.1, r.2.1, r.2.2.1]) ++ z)[3 * i]? = some r.1 ∧
      (cm.flatMap (fun r => [r.1, r.2.1, r.2.2.1]) ++ z)[3 * i + 1]? = some r.2.1 ∧ (cm.flatMap (fun r => [r.1, r.2.1, r.2.2.1]) ++ z)[3 * i + 2]? = some r.2.2.1 := by
    intro cm
    induction cm with
    | nil => intro i r z h; simp at h
    | cons a cm ih =>
      intro i r z h
      cases i with
      | zero => simp at h; subst h; simp
      | succ i =>
        have := ih i r z (by simpa using h)
        simp only [List.flatMap_cons, List.cons_append, List.nil_append, Nat.mul_add, Nat.mul_one]
        simpa using this
  intro i hi
  unfold qPalette
  cases hc : cm[i]? with
  | some r =>
    obtain ⟨h1, h2, h3⟩ := hg cm i r (List.replicate ((256 - cm.length) * 3) 0) hc
    rw [h1, h2, h3]
  | none =>
    have hge := List.getElem?_eq_none_iff.mp hc
    have hz : ∀ k, 3 * i ≤ k → k < 768 → (cm.flatMap (fun r => [r.1, r.2.1, r.2.2.1]) ++ List.replicate ((256 - cm.length) * 3) 0)[k]? = some 0 := by
      intro k h1 h2
      rw [List.getElem?_append_right (by rw [hl]; omega), hl, List.getElem?_replicate, if_pos (by omega)]
    rw [hz _ (by omega) (by omega), hz _ (by omega) (by omega), hz _ (by omega) (by omega)]

example : (qPalette exColours).length = 768 := (C117_palette (by decide)).1

end Verif
