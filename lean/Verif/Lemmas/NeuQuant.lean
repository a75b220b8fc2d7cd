import Verif.Spec.Palette
import Mathlib.Tactic.Linarith
import Mathlib.Tactic.Ring
import Mathlib.Tactic.FieldSimp
import Mathlib.Tactic.Positivity
import Mathlib.Data.List.Perm.Basic
import Mathlib.Algebra.BigOperators.Ring.List
import Mathlib.Algebra.Order.Field.Basic
/-
Lemmas about the choice of colours.
-/
namespace Verif
open Dict

theorem argminFrom_spec {α : Type} [LinearOrder α] : ∀ (l : List α) (best : α) (pos k : Nat),
    (argminFrom best pos k l = pos ∧ ∀ x ∈ l, best ≤ x) ∨
    ∃ (j : Nat) (y : α), argminFrom best pos k l = k + j ∧ l[j]? = some y ∧ y < best ∧ (∀ x ∈ l, y ≤ x) ∧
      ∀ (i : Nat) (x : α), i < j → l[i]? = some x → y < x
  | [], best, pos, k => .inl ⟨rfl, by simp⟩
  | x :: l, best, pos, k => by
    unfold argminFrom
    by_cases h : x < best
    · rw [if_pos h]
      right
      rcases argminFrom_spec l x k (k + 1) with ⟨h1, h2⟩ | ⟨j, y, h1, h2, h3, h4, h5⟩
      · exact ⟨0, x, by simp [h1], by simp, h, by simpa using h2, fun i x hi => by omega⟩
      · refine ⟨j + 1, y, by rw [h1]; omega, by simpa using h2, h3.trans h, ?_, ?_⟩
        · intro z hz
          rcases List.mem_cons.mp hz with rfl | hz
          · exact h3.le
          · exact h4 z hz
        · intro i z hi hz
          cases i with
          | zero => simp at hz; subst hz; exact h3
          | succ i => exact h5 i z (by omega) (by simpa using hz)
    · rw [if_neg h]
      rcases argminFrom_spec l best pos (k + 1) with ⟨h1, h2⟩ | ⟨j, y, h1, h2, h3, h4, h5⟩
      · left
        refine ⟨h1, ?_⟩
        intro z hz
        rcases List.mem_cons.mp hz with rfl | hz
        · exact not_lt.mp h
        · exact h2 z hz
      · right
        refine ⟨j + 1, y, by rw [h1]; omega, by simpa using h2, h3, ?_, ?_⟩
        · intro z hz
          rcases List.mem_cons.mp hz with rfl | hz
          · exact h3.le.trans (not_lt.mp h)
          · exact h4 z hz
        · intro i z hi hz
          cases i with
          | zero => simp at hz; subst hz; exact h3.trans_le (not_lt.mp h)
          | succ i => exact h5 i z (by omega) (by simpa using hz)

/-- The least number, the first one of several. -/
theorem argmin_spec {α : Type} [LinearOrder α] {l : List α} (h : l ≠ []) : ∃ (j : Nat) (y : α), argmin l = .ok j ∧ l[j]? = some y ∧
    (∀ x ∈ l, y ≤ x) ∧ ∀ (i : Nat) (x : α), i < j → l[i]? = some x → y < x := by
  cases l with
  | nil => exact absurd rfl h
  | cons x l =>
    unfold argmin
    rcases argminFrom_spec l x 0 1 with ⟨h1, h2⟩ | ⟨j, y, h1, h2, h3, h4, h5⟩
    · refine ⟨0, x, by simp only [h1], by simp, ?_, fun i z hi => by omega⟩
      intro z hz
      rcases List.mem_cons.mp hz with rfl | hz
      · exact le_rfl
      · exact h2 z hz
    · refine ⟨1 + j, y, by simp only [h1], by rw [Nat.add_comm]; simpa using h2, ?_, ?_⟩
      · intro z hz
        rcases List.mem_cons.mp hz with rfl | hz
        · exact h3.le
        · exact h4 z hz
      · intro i z hi hz
        cases i with
        | zero => simp at hz; subst hz; exact h3
        | succ i => exact h5 i z (by omega) (by simpa using hz)

theorem argmin_lt {α : Type} [LinearOrder α] {l : List α} {j : Nat} (h : argmin l = .ok j) : j < l.length := by
  by_cases hl : l = []
  · subst hl; cases h
  · obtain ⟨i, y, h1, h2, _⟩ := argmin_spec hl
    rw [h] at h1
    cases h1
    exact (List.getElem?_eq_some_iff.mp h2).1

/-! ### The parts of the array of factors -/

theorem length_qFactors (alpha : ℚ) {rad : Nat} (h : 1 ≤ rad) : (qFactors alpha rad).length = 2 * rad - 1 := by
  unfold qFactors
  simp
  omega

theorem qFactors_get (alpha : ℚ) {rad k : Nat} (h : 1 ≤ rad) (hk : k < 2 * rad - 1) :
    (qFactors alpha rad)[k]? = some (nearFactor alpha rad (if k < rad then rad - 1 - k else k - (rad - 1))) := by
  have hm : (rad * 2 - 1) / 2 = rad - 1 := by omega
  unfold qFactors
  simp only [hm]
  rw [List.getElem?_set]
  rcases Nat.lt_trichotomy k (rad - 1) with hlt | heq | hgt
  · rw [if_neg (by omega), List.map_append, List.getElem?_append_left (by simp; omega)]
    have h3 : rad - 1 - 1 - k < rad - 1 := by omega
    simp only [List.map_map, List.getElem?_map]
    rw [List.getElem?_reverse (by simpa using hlt), List.getElem?_range (by simp; omega)]
    simp only [List.length_range, Option.map_some, Function.comp]
    rw [if_pos (by omega)]
    unfold nearFactor
    rw [if_neg (by omega)]
    have : ((rad - 1 - 1 - k : Nat) : ℚ) = ((rad - 1 - k : Nat) : ℚ) - 1 := by
      have : rad - 1 - k = (rad - 1 - 1 - k) + 1 := by omega
      rw [this]; push_cast; ring
    rw [this]
  · subst heq
    rw [if_pos rfl, if_pos (by simp), if_pos (by omega)]
    unfold nearFactor
    rw [if_pos (by omega)]
  · rw [if_neg (by omega), List.map_append, List.getElem?_append_right (by simp; omega)]
    obtain ⟨m, rfl⟩ : ∃ m, k = rad + m := ⟨k - rad, by omega⟩
    have e : rad + m - ((List.range (rad - 1)).reverse.map (fun k : Nat => (k : ℚ)) |>.map fun x => alpha * ((rad : ℚ) * rad - x * x) / ((rad : ℚ) * rad)).length = m + 1 := by
      simp; omega
    rw [e, List.map_cons, List.getElem?_cons_succ]
    simp only [List.map_map, List.getElem?_map]
    rw [List.getElem?_range (by omega)]
    simp only [Option.map_some, Function.comp]
    rw [if_neg (by omega)]
    unfold nearFactor
    rw [if_neg (by omega)]
    have : ((rad + m - (rad - 1) : Nat) : ℚ) = m + 1 := by
      have : rad + m - (rad - 1) = m + 1 := by omega
      rw [this]; push_cast; ring
    rw [this]
    congr 3
    ring

theorem intSlice_get {α : Type} (l : List α) (a b : Int) (k : Nat) :
    (intSlice l a b)[k]? = if sliceBound l.length a + k < sliceBound l.length b then l[sliceBound l.length a + k]? else none := by
  unfold intSlice
  rw [List.getElem?_drop, List.getElem?_take]

theorem qAlterNeigh_spec (alpha : ℚ) {rad i : Nat} (c : QRow) (net : List QRow) (hr : 1 ≤ rad) (hi : 3 ≤ i) (hn : i < net.length) :
    ∃ net', qAlterNeigh alpha rad i c net = .ok net' ∧ net'.length = net.length ∧
      ∀ (m : Nat), net'[m]? = net[m]?.map fun p => if 3 ≤ m ∧ rowGap m i < rad then qMove (nearFactor alpha rad (rowGap m i)) c p else p := by
  have hlen := length_qFactors alpha hr
  obtain ⟨n, hnn⟩ : ∃ n, net.length = n := ⟨_, rfl⟩
  obtain ⟨A, hA⟩ : ∃ A : Nat, A = if rad + 2 ≤ i then i - rad + 1 else 3 := ⟨_, rfl⟩
  obtain ⟨S, hS⟩ : ∃ S : Nat, S = if rad + 2 ≤ i then 0 else 2 + rad - i := ⟨_, rfl⟩
  obtain ⟨H, hH⟩ : ∃ H : Nat, H = if i + rad ≤ n then i + rad else n := ⟨_, rfl⟩
  obtain ⟨E, hE⟩ : ∃ E : Nat, E = if i + rad ≤ n then 2 * rad - 1 else 2 * rad - 1 + n - (i + rad) := ⟨_, rfl⟩
  have e1 : (if (i : Int) - rad ≥ 2 then ((i : Int) - rad, (0 : Int)) else (2, 2 - ((i : Int) - rad))) = ((A : Int) - 1, (S : Int)) := by
    split_ifs at hA hS ⊢ <;> (ext <;> simp <;> omega)
  have hS' : S ≤ 2 * rad - 1 := by split_ifs at hS <;> omega
  have hAn : A ≤ n := by split_ifs at hA <;> omega
  have hHn : H ≤ n := by split_ifs at hH <;> omega
  have hAH : A ≤ H := by split_ifs at hA hH <;> omega
  have hEr : E ≤ 2 * rad - 1 := by split_ifs at hE <;> omega
  have hlens : E - S = H - A ∧ S ≤ E := by split_ifs at hE hA hH hS <;> omega
  have hAS : A + rad = S + i + 1 := by split_ifs at hA hS <;> omega
  obtain ⟨stop, hi', e2, hb1, hb2⟩ : ∃ stop hi' : Int, (if (i : Int) + rad ≤ (net.length : Int) then ((i : Int) + rad, (rad : Int) * 2 - 1) else ((net.length : Int), (net.length : Int) - ((i : Int) + rad))) = (hi', stop) ∧
      sliceBound (2 * rad - 1) stop = E ∧ sliceBound n hi' = H := by
    by_cases h : i + rad ≤ n
    · refine ⟨(rad : Int) * 2 - 1, (i : Int) + rad, by rw [if_pos (by omega)], ?_, ?_⟩
      · rw [if_pos h] at hE
        unfold sliceBound
        rw [if_neg (by omega)]
        omega
      · rw [if_pos h] at hH
        unfold sliceBound
        rw [if_neg (by omega)]
        omega
    · refine ⟨(n : Int) - ((i : Int) + rad), n, by rw [if_neg (by omega), hnn], ?_, ?_⟩
      · rw [if_neg h] at hE
        unfold sliceBound
        rw [if_pos (by omega)]
        omega
      · rw [if_neg h] at hH
        unfold sliceBound
        rw [if_neg (by omega)]
        omega
  have hb3 : sliceBound n ((A : Int) - 1 + 1) = A := by unfold sliceBound; rw [if_neg (by omega)]; omega
  have hb4 : sliceBound (2 * rad - 1) (S : Int) = S := by unfold sliceBound; rw [if_neg (by omega)]; omega
  have ha : ∀ k, (intSlice (qFactors alpha rad) S stop)[k]? = if S + k < E then (qFactors alpha rad)[S + k]? else none := by
    intro k; rw [intSlice_get, hlen, hb4, hb1]
  have hp : ∀ k, (intSlice net ((A : Int) - 1 + 1) hi')[k]? = if A + k < H then net[A + k]? else none := by
    intro k; rw [intSlice_get, hnn, hb3, hb2]
  have hla : (intSlice (qFactors alpha rad) S stop).length = E - S := by
    unfold intSlice; rw [hlen, hb4, hb1, List.length_drop, List.length_take, hlen]; omega
  have hlp : (intSlice net ((A : Int) - 1 + 1) hi').length = H - A := by
    unfold intSlice; rw [hnn, hb3, hb2, List.length_drop, List.length_take, hnn]; omega
  have heq : qAlterNeigh alpha rad i c net = .ok (net.take A ++ List.zipWith (fun a p => qMove a c p) (intSlice (qFactors alpha rad) S stop) (intSlice net ((A : Int) - 1 + 1) hi') ++ net.drop (A + (H - A))) := by
    unfold qAlterNeigh
    simp only [e1, e2]
    rw [if_neg (by rw [hla, hlp]; omega), hnn, hb3, hlp]
  refine ⟨_, heq, ?_, ?_⟩
  · simp only [List.length_append, List.length_take, List.length_drop, List.length_zipWith, hla, hlp, hnn]
    omega
  · intro m
    rcases Nat.lt_or_ge m A with h1 | h1
    · rw [List.append_assoc, List.getElem?_append_left (by simp; omega), List.getElem?_take, if_pos h1]
      have : ¬ (3 ≤ m ∧ rowGap m i < rad) := by unfold rowGap; split_ifs at hA <;> omega
      simp only [if_neg this]
      simp
    · rcases Nat.lt_or_ge m H with h2 | h2
      · have e3 : m - (net.take A).length = m - A := by simp; omega
        rw [List.append_assoc, List.getElem?_append_right (by simp; omega), e3,
          List.getElem?_append_left (by rw [List.length_zipWith, hla, hlp]; omega), List.getElem?_zipWith, ha, hp, if_pos (by omega), if_pos (by omega),
          qFactors_get alpha hr (by omega)]
        have e4 : A + (m - A) = m := by omega
        have e5 : (if S + (m - A) < rad then rad - 1 - (S + (m - A)) else S + (m - A) - (rad - 1)) = rowGap m i := by
          unfold rowGap; split_ifs <;> omega
        have h3 : 3 ≤ m ∧ rowGap m i < rad := by unfold rowGap; split_ifs at hA hH <;> omega
        rw [e4, e5, List.getElem?_eq_getElem (by omega)]
        simp only [if_pos h3]
        rfl
      · have e3 : m - (net.take A ++ List.zipWith (fun a p => qMove a c p) (intSlice (qFactors alpha rad) S stop) (intSlice net ((A : Int) - 1 + 1) hi')).length = m - H := by
          simp only [List.length_append, List.length_take, List.length_zipWith, hla, hlp, hnn]; omega
        rw [List.getElem?_append_right (by simp only [List.length_append, List.length_take, List.length_zipWith, hla, hlp, hnn]; omega), e3, List.getElem?_drop]
        have e4 : A + (H - A) + (m - H) = m := by omega
        rw [e4]
        by_cases h3 : m < n
        · have : ¬ (3 ≤ m ∧ rowGap m i < rad) := by unfold rowGap; split_ifs at hH <;> omega
          simp only [if_neg this]
          simp
        · rw [List.getElem?_eq_none (by omega)]; rfl


/-! ### Rows within the range of bytes -/

theorem between_move {a x c lo hi : ℚ} (ha : 0 ≤ a) (ha1 : a ≤ 1) (hx : lo ≤ x ∧ x ≤ hi) (hc : lo ≤ c ∧ c ≤ hi) : lo ≤ x - a * (x - c) ∧ x - a * (x - c) ≤ hi := by
  constructor <;> nlinarith [mul_nonneg ha (sub_nonneg.mpr hc.1), mul_nonneg ha (sub_nonneg.mpr hc.2), mul_nonneg (sub_nonneg.mpr ha1) (sub_nonneg.mpr hx.1), mul_nonneg (sub_nonneg.mpr ha1) (sub_nonneg.mpr hx.2)]

theorem inByte_move {a : ℚ} {c p : QRow} (ha : 0 ≤ a) (ha1 : a ≤ 1) (hp : InByte p) (hc : InByte c) : InByte (qMove a c p) :=
  ⟨between_move ha ha1 hp.1 hc.1, between_move ha ha1 hp.2.1 hc.2.1, between_move ha ha1 hp.2.2 hc.2.2⟩

theorem abs_move {a x c : ℚ} (ha1 : a ≤ 1) : |x - a * (x - c) - c| = (1 - a) * |x - c| := by
  have : x - a * (x - c) - c = (1 - a) * (x - c) := by ring
  rw [this, abs_mul, abs_of_nonneg (by linarith)]

theorem qDist_move {a : ℚ} {c p : QRow} (ha1 : a ≤ 1) : qDist c (qMove a c p) = (1 - a) * qDist c p := by
  unfold qDist qMove
  simp only [abs_move ha1]
  ring

theorem qDist_nonneg (c p : QRow) : 0 ≤ qDist c p := by unfold qDist; positivity

theorem nearFactor_mem {alpha : ℚ} {rad d : Nat} (ha : 0 ≤ alpha) (h : d < rad) : 0 ≤ nearFactor alpha rad d ∧ nearFactor alpha rad d ≤ alpha := by
  unfold nearFactor
  split_ifs with hd
  · exact ⟨le_rfl, ha⟩
  · have hr : (0 : ℚ) < rad := by exact_mod_cast (by omega : 0 < rad)
    have h1 : (1 : ℚ) ≤ d := by exact_mod_cast (by omega : 1 ≤ d)
    have h2 : (d : ℚ) ≤ rad := by exact_mod_cast h.le
    have h3 : 0 ≤ (rad : ℚ) * rad - ((d : ℚ) - 1) * ((d : ℚ) - 1) := by nlinarith
    constructor
    · positivity
    · rw [div_le_iff₀ (by positivity)]
      exact mul_le_mul_of_nonneg_left (by nlinarith [mul_self_nonneg ((d : ℚ) - 1)]) ha

/-! ### One contest -/

theorem cityDist_eq (c p : QRow) : cityDist c p = qDist c p := by
  unfold cityDist qDist
  rw [abs_sub_comm c.1, abs_sub_comm c.2.1, abs_sub_comm c.2.2]

theorem towards_eq (f : ℚ) (p c : QRow) : towards f p c = qMove f c p := by
  unfold towards qMove
  ext <;> dsimp only <;> ring

theorem qContest_spec (c : QRow) (s : QNet) {n : Nat} (hn : 4 ≤ n) (h1 : s.network.length = n) (h2 : s.freq.length = n) (h3 : s.bias.length = n) :
    ∃ best j : Nat, qContest c s = .ok (j, ⟨s.network, (s.freq.take 3 ++ (s.freq.drop 3).map (· * (1 - 1 / 1024))).modify best (· + 1 / 1024),
        (s.bias.take 3 ++ List.zipWith (fun b f => b + 1 * f) (s.bias.drop 3) ((s.freq.drop 3).map (· * (1 - 1 / 1024)))).modify best (· - 1)⟩) ∧
      3 ≤ best ∧ best < n ∧ 3 ≤ j ∧ j < n ∧
      (∃ p, s.network[best]? = some p ∧ ∀ (m : Nat) (q : QRow), 3 ≤ m → s.network[m]? = some q → qDist c p ≤ qDist c q) ∧
      ∃ p b, s.network[j]? = some p ∧ s.bias[j]? = some b ∧ ∀ (m : Nat) (q : QRow) (d : ℚ), 3 ≤ m → s.network[m]? = some q → s.bias[m]? = some d →
        qDist c p - b ≤ qDist c q - d := by
  have hne : ((s.network.drop 3).map (qDist c)) ≠ [] := by
    intro h; have := congrArg List.length h; simp [h1] at this; omega
  have hne2 : (List.zipWith (· - ·) ((s.network.drop 3).map (qDist c)) (s.bias.drop 3)) ≠ [] := by
    intro h; have := congrArg List.length h; simp [h1, h3] at this; omega
  obtain ⟨best, y, hb, hy, hmin, _⟩ := argmin_spec hne
  obtain ⟨j, z, hj, hz, hmin2, _⟩ := argmin_spec hne2
  have hbl := argmin_lt hb
  have hjl := argmin_lt hj
  simp only [List.length_map, List.length_drop, List.length_zipWith, h1, h3] at hbl hjl
  have hf : (s.freq.take 3 ++ (s.freq.drop 3).map (· * (1 - 1 / 1024))).drop 3 = (s.freq.drop 3).map (· * (1 - 1 / 1024)) := by
    rw [List.drop_append_of_le_length (by simp; omega), List.drop_eq_nil_of_le (by simp), List.nil_append]
  refine ⟨3 + best, 3 + j, ?_, by omega, by omega, by omega, by omega, ?_, ?_⟩
  · unfold qContest
    dsimp only
    rw [hb, hj, hf]
    rfl
  · rw [List.getElem?_map, List.getElem?_drop] at hy
    obtain ⟨p, hp, rfl⟩ := Option.map_eq_some_iff.mp hy
    refine ⟨p, hp, ?_⟩
    intro m q hm hq
    refine hmin _ (List.mem_map.mpr ⟨q, ?_, rfl⟩)
    refine List.mem_iff_getElem?.mpr ⟨m - 3, ?_⟩
    rw [List.getElem?_drop, show 3 + (m - 3) = m by omega]
    exact hq
  · rw [List.getElem?_zipWith, List.getElem?_map, List.getElem?_drop, List.getElem?_drop, List.getElem?_eq_getElem (by omega), List.getElem?_eq_getElem (by omega)] at hz
    simp only [Option.map_some, Option.some.injEq] at hz
    refine ⟨s.network[3 + j], s.bias[3 + j], List.getElem?_eq_getElem (by omega), List.getElem?_eq_getElem (by omega), ?_⟩
    intro m q d hm hq hd
    rw [hz]
    refine hmin2 _ (List.mem_iff_getElem?.mpr ⟨m - 3, ?_⟩)
    rw [List.getElem?_zipWith, List.getElem?_map, List.getElem?_drop, List.getElem?_drop, show 3 + (m - 3) = m by omega, hq, hd]
    rfl

/-! ### One pixel -/

/-- What is known of the network at any time: its lengths, the first three rows and the range of the others. -/
structure QFit (n : Nat) (bg : QRow) (s : QNet) : Prop where
  len : s.network.length = n
  lenFreq : s.freq.length = n
  lenBias : s.bias.length = n
  black : s.network[0]? = some (0, 0, 0)
  white : s.network[1]? = some (255, 255, 255)
  back : s.network[2]? = some bg
  bytes : ∀ (m : Nat) (p : QRow), 3 ≤ m → s.network[m]? = some p → InByte p

theorem qMove_zero (c p : QRow) : qMove 0 c p = p := by simp [qMove]

theorem qAlterSingle_get (a : ℚ) (i : Nat) (c : QRow) (net : List QRow) (m : Nat) :
    (qAlterSingle a i c net)[m]? = net[m]?.map fun p => if m = i then qMove a c p else p := by
  unfold qAlterSingle
  rw [List.getElem?_modify]
  by_cases h : i = m
  · simp [h]
  · simp [h, Ne.symm h]

/-- The network after the contest won by row `j`. -/
theorem qAlter_spec (a : ℚ) {rad j : Nat} (c : QRow) (net : List QRow) (hj : 3 ≤ j) (hn : j < net.length) :
    ∃ net', (if rad > 0 then qAlterNeigh a rad j c (qAlterSingle a j c net) else .ok (qAlterSingle a j c net)) = .ok net' ∧
      net'.length = net.length ∧
      ∀ (m : Nat), net'[m]? = net[m]?.map fun p => qMove (if m = j then a else if 3 ≤ m ∧ rowGap m j < rad then nearFactor a rad (rowGap m j) else 0) c p := by
  have hls : (qAlterSingle a j c net).length = net.length := by simp [qAlterSingle]
  by_cases hr : rad > 0
  · obtain ⟨net', h1, h2, h3⟩ := qAlterNeigh_spec a (rad := rad) c (qAlterSingle a j c net) hr hj (by rw [hls]; exact hn)
    refine ⟨net', by rw [if_pos hr]; exact h1, by rw [h2, hls], ?_⟩
    intro m
    rw [h3, qAlterSingle_get, Option.map_map]
    congr 1
    funext p
    simp only [Function.comp]
    by_cases hm : m = j
    · subst hm
      have : rowGap m m = 0 := by simp [rowGap]
      rw [this]
      simp only [nearFactor, if_true, qMove_zero, ite_self]
    · rw [if_neg hm, if_neg hm]
      split_ifs with h4
      · rfl
      · rw [qMove_zero]
  · refine ⟨_, by rw [if_neg hr], hls, ?_⟩
    intro m
    rw [qAlterSingle_get]
    congr 1
    funext p
    by_cases hm : m = j
    · simp [hm]
    · rw [if_neg hm, if_neg hm, if_neg (by omega), qMove_zero]

theorem qSpecial_none {c : QRow} {s : QNet} (h : qSpecial c s = none) : ∀ p ∈ s.network.take 3, p ≠ c := by
  unfold qSpecial at h
  rw [List.findIdx?_eq_none_iff] at h
  intro p hp e
  have := h p hp
  simp [e] at this

/-- The network as it is when a pixel is looked at. -/
def withBack (i : Nat) (c : QRow) (s : QNet) : QNet := if i = 0 then ⟨s.network.set 2 c, s.freq, s.bias⟩ else s

theorem qPixel_some {i alpha rad : Nat} {c : QRow} {s : QNet} {j : Nat} (h : qSpecial c (withBack i c s) = some j) :
    qPixel i alpha rad c s = .ok (withBack i c s) := by
  unfold withBack at h
  unfold qPixel withBack
  dsimp only
  rw [h]

theorem qPixel_none {i alpha rad n : Nat} {c : QRow} {s t : QNet} (ht : withBack i c s = t) (hn : 4 ≤ n) (h1 : t.network.length = n) (h2 : t.freq.length = n) (h3 : t.bias.length = n)
    (h : qSpecial c t = none) :
    ∃ best j net', qPixel i alpha rad c s = .ok ⟨net', freqAfter best t, biasAfter best t⟩ ∧ best < n ∧ j < n ∧ NearestRow c t best ∧ BiasedRow c t j ∧
      net'.length = n ∧
      ∀ (m : Nat), net'[m]? = t.network[m]?.map fun p =>
        qMove (if m = j then (alpha : ℚ) / 1024 else if 3 ≤ m ∧ rowGap m j < rad then nearFactor ((alpha : ℚ) / 1024) rad (rowGap m j) else 0) c p := by
  obtain ⟨best, j, hct, hb3, hbn, hj3, hjn, hnear, hbias⟩ := qContest_spec c t hn h1 h2 h3
  obtain ⟨net', hnet, hlen, hget⟩ := qAlter_spec ((alpha : ℚ) / 1024) (rad := rad) c t.network hj3 (by rw [h1]; exact hjn)
  refine ⟨best, j, net', ?_, hbn, hjn, ⟨hb3, by simpa only [cityDist_eq] using hnear⟩, ⟨hj3, by simpa only [cityDist_eq] using hbias⟩, by rw [hlen, h1], hget⟩
  unfold withBack at ht
  unfold qPixel
  dsimp only
  rw [ht, h]
  dsimp only
  rw [hct]
  dsimp only [bind, Except.bind]
  rw [if_pos hj3]
  by_cases hr : rad > 0
  · rw [if_pos hr] at hnet ⊢
    rw [hnet]
    rfl
  · rw [if_neg hr] at hnet ⊢
    cases hnet
    rfl

theorem qPixel_spec {i alpha rad n : Nat} (ha : alpha ≤ 1024) {c bg : QRow} (hc : InByte c) {s : QNet} (hn : 4 ≤ n)
    (hs : QFit n bg (withBack i c s)) :
    ∃ s', qPixel i alpha rad c s = .ok s' ∧ QFit n bg s' := by
  obtain ⟨t, ht⟩ : ∃ t : QNet, withBack i c s = t := ⟨_, rfl⟩
  cases hsp : qSpecial c (withBack i c s) with
  | some j => exact ⟨_, qPixel_some hsp, hs⟩
  | none =>
    rw [ht] at hs hsp
    obtain ⟨best, j, net', heq, hbn, hjn, ⟨hb3, _⟩, ⟨hj3, _⟩, hlen, hget⟩ := qPixel_none (alpha := alpha) (rad := rad) ht hn hs.len hs.lenFreq hs.lenBias hsp
    have ha0 : (0 : ℚ) ≤ (alpha : ℚ) / 1024 := by positivity
    have ha1 : (alpha : ℚ) / 1024 ≤ 1 := by rw [div_le_one (by norm_num)]; exact_mod_cast ha
    refine ⟨_, heq, ?_⟩
    have hfix : ∀ m, m < 3 → net'[m]? = t.network[m]? := by
      intro m hm
      rw [hget, if_neg (by omega), if_neg (by omega)]
      simp [qMove_zero]
    refine ⟨hlen, ?_, ?_, (hfix 0 (by omega)).trans hs.black, (hfix 1 (by omega)).trans hs.white, (hfix 2 (by omega)).trans hs.back, ?_⟩
    · simp [freqAfter, hs.lenFreq]; omega
    · simp [biasAfter, hs.lenFreq, hs.lenBias]; omega
    · intro m p hm hp
      dsimp only at hp
      rw [hget] at hp
      obtain ⟨q, hq, rfl⟩ := Option.map_eq_some_iff.mp hp
      have hqb := hs.bytes m q hm hq
      split_ifs with e1 e2
      · exact inByte_move ha0 ha1 hqb hc
      · have := nearFactor_mem ha0 e2.2
        exact inByte_move this.1 (this.2.trans ha1) hqb hc
      · rw [qMove_zero]; exact hqb

/-! ### All pixels -/

theorem qLoop_eq {pixels : List QRow} {alphadec delta step : Nat} (hp : pixels ≠ []) : ∀ (k i j alpha br : Nat) (s : QNet),
    qLoop pixels alphadec delta step k i ((j * step) % pixels.length) alpha br s =
      learnFrom alphadec delta ((List.range k).filterMap fun m : Nat => pixels[((j + m) * step) % pixels.length]?) i alpha br s
  | 0, i, j, alpha, br, s => rfl
  | k + 1, i, j, alpha, br, s => by
    have hpos : 0 < pixels.length := List.length_pos_iff.mpr hp
    have hlt : (j * step) % pixels.length < pixels.length := Nat.mod_lt _ hpos
    have hnext : ((j * step) % pixels.length + step) % pixels.length = ((j + 1) * step) % pixels.length := by
      rw [Nat.mod_add_mod]; congr 1; ring
    have hl : ((List.range (k + 1)).filterMap fun m : Nat => pixels[((j + m) * step) % pixels.length]?) =
        pixels[(j * step) % pixels.length] :: ((List.range k).filterMap fun m : Nat => pixels[(((j + 1) + m) * step) % pixels.length]?) := by
      rw [List.range_succ_eq_map, List.filterMap_cons]
      simp only [Nat.add_zero]
      rw [List.getElem?_eq_getElem hlt]
      dsimp only
      rw [List.filterMap_map]
      congr 1
      apply List.filterMap_congr
      intro m _
      simp only [Function.comp]
      rw [show j + m.succ = j + 1 + m by omega]
    rw [hl]
    unfold qLoop learnFrom
    rw [List.getElem?_eq_getElem hlt]
    dsimp only
    cases qPixel i alpha (qRadius br) pixels[(j * step) % pixels.length] s with
    | error e => rfl
    | ok s' =>
      dsimp only [bind, Except.bind]
      rw [hnext, qLoop_eq hp k (i + 1) (j + 1), qLoop_eq hp k (i + 1) (j + 1)]

theorem qLearn_eq {pixels : List QRow} (hp : pixels ≠ []) {f : Nat} (hf : f ≠ 0) (s : QNet) :
    qLearn pixels f s = learnFrom (30 + (f - 1) / 3) (pixels.length / f / 100) (sampled pixels (qStep pixels.length) (pixels.length / f)) 0 1024 (s.network.length / 8 * 64) s := by
  unfold qLearn
  rw [if_neg hf]
  have := qLoop_eq (alphadec := 30 + (f - 1) / 3) (delta := pixels.length / f / 100) (step := qStep pixels.length) hp (pixels.length / f) 0 0 1024 (s.network.length / 8 * 64) s
  rw [Nat.zero_mul, Nat.zero_mod] at this
  dsimp only
  rw [this]
  unfold sampled
  simp only [Nat.zero_add]

theorem learnFrom_later {n : Nat} (hn : 4 ≤ n) {bg : QRow} {alphadec delta : Nat} (hd : delta ≠ 0) : ∀ (l : List QRow) (i alpha br : Nat) (s : QNet),
    (∀ c ∈ l, InByte c) → i ≠ 0 → alpha ≤ 1024 → QFit n bg s → ∃ s', learnFrom alphadec delta l i alpha br s = .ok s' ∧ QFit n bg s'
  | [], i, alpha, br, s, _, _, _, hs => ⟨s, rfl, hs⟩
  | c :: l, i, alpha, br, s, hl, hi, ha, hs => by
    have hw : withBack i c s = s := by unfold withBack; rw [if_neg hi]
    obtain ⟨s1, h1, h2⟩ := qPixel_spec (rad := qRadius br) ha (hl c (by simp)) hn (by rw [hw]; exact hs)
    unfold learnFrom
    rw [h1]
    dsimp only
    rw [if_neg hd]
    split_ifs
    · exact learnFrom_later hn hd l _ _ _ _ (fun c hc => hl c (by simp [hc])) (by omega) ((Nat.sub_le _ _).trans ha) h2
    · exact learnFrom_later hn hd l _ _ _ _ (fun c hc => hl c (by simp [hc])) (by omega) ha h2

theorem learnFrom_first {n : Nat} (hn : 4 ≤ n) {c : QRow} {alphadec delta : Nat} (hd : delta ≠ 0) {l : List QRow} {alpha br : Nat} {s : QNet}
    (hl : ∀ x ∈ c :: l, InByte x) (ha : alpha ≤ 1024) (hs : QFit n c (withBack 0 c s)) :
    ∃ s', learnFrom alphadec delta (c :: l) 0 alpha br s = .ok s' ∧ QFit n c s' := by
  obtain ⟨s1, h1, h2⟩ := qPixel_spec (rad := qRadius br) ha (hl c (by simp)) hn hs
  unfold learnFrom
  rw [h1]
  dsimp only
  rw [if_neg hd]
  split_ifs
  · exact learnFrom_later hn hd l _ _ _ _ (fun c hc => hl c (by simp [hc])) (by omega) ((Nat.sub_le _ _).trans ha) h2
  · exact learnFrom_later hn hd l _ _ _ _ (fun c hc => hl c (by simp [hc])) (by omega) ha h2

theorem qSetUp_ok {n : Nat} (hn : 3 ≤ n) (junk c : QRow) : ∃ s, qSetUp n junk = .ok s ∧ s.network.length = n ∧ QFit n c (withBack 0 c s) := by
  unfold qSetUp
  rw [if_neg (by omega)]
  refine ⟨_, rfl, by simp; omega, ?_⟩
  unfold withBack
  rw [if_pos rfl]
  refine ⟨by simp; omega, by simp, by simp, by simp, by simp, by simp, ?_⟩
  intro m p hm hp
  rw [List.getElem?_set_ne (by omega)] at hp
  dsimp only at hp
  rw [List.getElem?_append_right (by simpa using hm), List.getElem?_map] at hp
  obtain ⟨k, hk, rfl⟩ := Option.map_eq_some_iff.mp hp
  have hkl := List.mem_range.mp (List.mem_of_getElem? hk)
  have hpos : (0 : ℚ) < ((n - 3 : Nat) : ℚ) := by exact_mod_cast (by omega : 0 < n - 3)
  have h1 : 0 ≤ 255 * (k : ℚ) / ((n - 3 : Nat) : ℚ) := by positivity
  have h2 : 255 * (k : ℚ) / ((n - 3 : Nat) : ℚ) ≤ 255 := by
    rw [div_le_iff₀ hpos]
    have : (k : ℚ) ≤ ((n - 3 : Nat) : ℚ) := by exact_mod_cast hkl.le
    linarith
  exact ⟨⟨h1, h2⟩, ⟨h1, h2⟩, ⟨h1, h2⟩⟩


/-! ### The order of the colours and the index -/

theorem length_fillRange {α : Type} (a b : Nat) (x : α) (l : List α) : (fillRange l a b x).length = l.length := by
  unfold fillRange
  generalize List.range' a (b - a) = js
  induction js generalizing l with
  | nil => rfl
  | cons j js ih => rw [List.foldl_cons, ih]; simp

theorem foldl_set_get {α : Type} (x : α) : ∀ (js : List Nat) (l : List α) (m : Nat), (js.foldl (fun l j => l.set j x) l)[m]? = if m ∈ js then l[m]?.map (fun _ => x) else l[m]?
  | [], l, m => by simp
  | j :: js, l, m => by
    rw [List.foldl_cons, foldl_set_get x js]
    by_cases h : j = m
    · subst h
      by_cases hl : j < l.length
      · simp [hl]
      · simp [hl]
    · rw [List.getElem?_set_ne h]
      simp [Ne.symm h]

theorem fillRange_get {α : Type} (a b : Nat) (x : α) (l : List α) (m : Nat) :
    (fillRange l a b x)[m]? = if a ≤ m ∧ m < b then l[m]?.map (fun _ => x) else l[m]? := by
  unfold fillRange
  rw [foldl_set_get]
  simp only [List.mem_range'_1]
  have : (a ≤ m ∧ m < a + (b - a)) ↔ (a ≤ m ∧ m < b) := by omega
  simp only [this]

theorem perm_set {α : Type} : ∀ (r : List α) (j : Nat) (p q : α), r[j]? = some q → (q :: r.set j p).Perm (p :: r)
  | [], j, p, q, h => by simp at h
  | a :: r, 0, p, q, h => by simp at h; subst h; simpa using List.Perm.swap _ _ _
  | a :: r, j + 1, p, q, h => by
    have ih := perm_set r j p q (by simpa using h)
    rw [List.set_cons_succ]
    exact (List.Perm.swap a q _).trans ((ih.cons a).trans (List.Perm.swap p a r))

/-- One exchange of `inxbuild`: a row with the least green comes to the front of the rest. -/
theorem swap_spec (done : List CRow) (p : CRow) (r : List CRow) : ∃ (small : Nat) (q : CRow) (r' : List CRow),
    argminFrom p.2.1 done.length (done.length + 1) (((done ++ p :: r).drop (done.length + 1)).map fun r => r.2.1) = small ∧
    (done ++ p :: r)[small]? = some q ∧
    (if done.length ≠ small then ((done ++ p :: r).set done.length q).set small p else done ++ p :: r) = done ++ q :: r' ∧
    (q :: r').Perm (p :: r) ∧ ∀ x ∈ p :: r, q.2.1 ≤ x.2.1 := by
  have hd : (done ++ p :: r).drop (done.length + 1) = r := by
    rw [List.drop_append]; simp
  rw [hd]
  rcases argminFrom_spec (r.map fun r => r.2.1) p.2.1 done.length (done.length + 1) with ⟨h1, h2⟩ | ⟨j, y, h1, h2, h3, h4, _⟩
  · refine ⟨done.length, p, r, h1, by simp, by simp, .rfl, ?_⟩
    intro x hx
    rcases List.mem_cons.mp hx with rfl | hx
    · exact le_rfl
    · exact h2 _ (List.mem_map.mpr ⟨x, hx, rfl⟩)
  · rw [List.getElem?_map] at h2
    obtain ⟨q, hq, rfl⟩ := Option.map_eq_some_iff.mp h2
    refine ⟨done.length + 1 + j, q, r.set j p, h1, ?_, ?_, perm_set r j p q hq, ?_⟩
    · rw [List.getElem?_append_right (by omega), show done.length + 1 + j - done.length = j + 1 by omega, List.getElem?_cons_succ]
      exact hq
    · rw [if_pos (by omega), List.set_append_right _ _ (le_refl _), List.set_append_right _ _ (by omega)]
      simp only [Nat.sub_self, List.set_cons_zero]
      rw [show done.length + 1 + j - done.length = j + 1 by omega, List.set_cons_succ]
    · intro x hx
      rcases List.mem_cons.mp hx with rfl | hx
      · exact h3.le
      · exact h4 _ (List.mem_map.mpr ⟨x, hx, rfl⟩)

theorem below_perm {a b : List CRow} (h : a.Perm b) (g : Nat) : below a g = below b g := h.countP_eq _

theorem below_append (a b : List CRow) (g : Nat) : below (a ++ b) g = below a g + below b g := List.countP_append

theorem below_all {a : List CRow} {g : Nat} (h : ∀ x ∈ a, x.2.1 < g) : below a g = a.length := by
  unfold below
  rw [List.countP_eq_length]
  intro x hx; simpa using h x hx

theorem below_none {a : List CRow} {g : Nat} (h : ∀ x ∈ a, g ≤ x.2.1) : below a g = 0 := by
  unfold below
  rw [List.countP_eq_zero]
  intro x hx; simpa using h x hx

theorem qIndexLoop_spec {cm0 : List CRow} : ∀ (k : Nat) (done rest : List CRow) (idx : List (Option Nat)) (prev start : Nat),
    rest.length = k → (done ++ rest).Perm cm0 → done.Pairwise (fun a b => a.2.1 ≤ b.2.1) → (∀ x ∈ done, x.2.1 ≤ prev) → (∀ y ∈ rest, prev ≤ y.2.1 ∧ y.2.1 < 256) →
    start = below cm0 prev → idx.length = 256 → prev < 256 → (∀ g, g < prev → idx[g]? = some (some (middle cm0 g))) →
    ∃ cm' idx' prev' start', qIndexLoop k done.length (done ++ rest) idx prev start = .ok (cm', idx', prev', start') ∧ cm'.Perm cm0 ∧
      cm'.Pairwise (fun a b => a.2.1 ≤ b.2.1) ∧ (∀ x ∈ cm', x.2.1 ≤ prev') ∧ start' = below cm0 prev' ∧ idx'.length = 256 ∧ prev' < 256 ∧
      (∀ g, g < prev' → idx'[g]? = some (some (middle cm0 g)))
  | 0, done, rest, idx, prev, start, hk, hperm, hsort, hdone, hrest, hstart, hlen, hprev, hidx => by
    have : rest = [] := List.length_eq_zero_iff.mp hk
    subst this
    rw [List.append_nil] at hperm ⊢
    exact ⟨done, idx, prev, start, rfl, hperm, hsort, hdone, hstart, hlen, hprev, hidx⟩
  | k + 1, done, [], idx, prev, start, hk, _, _, _, _, _, _, _, _ => by simp at hk
  | k + 1, done, p :: r, idx, prev, start, hk, hperm, hsort, hdone, hrest, hstart, hlen, hprev, hidx => by
    obtain ⟨small, q, r', hsm, hq, hset, hqr, hmin⟩ := swap_spec done p r
    have hq' : q ∈ p :: r := hqr.subset (by simp)
    have hqp := hrest q hq'
    have hr' : ∀ y ∈ r', q.2.1 ≤ y.2.1 ∧ y.2.1 < 256 := fun y hy => ⟨hmin y (hqr.subset (by simp [hy])), (hrest y (hqr.subset (by simp [hy]))).2⟩
    have hperm' : ((done ++ [q]) ++ r').Perm cm0 := by
      rw [List.append_assoc]
      exact (List.Perm.append_left done hqr).trans hperm
    have hsort' : (done ++ [q]).Pairwise (fun a b => a.2.1 ≤ b.2.1) := by
      rw [List.pairwise_append]
      refine ⟨hsort, by simp, ?_⟩
      intro a ha b hb
      simp at hb; subst hb
      exact (hdone a ha).trans hqp.1
    have hrl : r'.length = k := by
      have := hqr.length_eq
      simp at this hk
      omega
    have hn : cm0.length = done.length + k + 1 := by
      rw [← hperm'.length_eq]; simp [hrl]; omega
    have hstep : (done ++ q :: r') = (done ++ [q]) ++ r' := by simp
    have hlen1 : done.length + 1 = (done ++ [q]).length := by simp
    have hget : (done ++ p :: r)[done.length]? = some p := by simp
    unfold qIndexLoop
    rw [hget]
    dsimp only
    rw [hsm, hq]
    dsimp only
    rw [hset, hstep, hlen1]
    have hbelow : ∀ g, below cm0 g = below done g + below (q :: r') g := by
      intro g
      rw [← below_perm hperm' g, List.append_assoc, below_append]; rfl
    by_cases hne : q.2.1 ≠ prev
    · rw [if_pos hne]
      have hlt : prev < q.2.1 := lt_of_le_of_ne hqp.1 (Ne.symm hne)
      have hb : ∀ g, prev < g → g ≤ q.2.1 → below cm0 g = done.length := by
        intro g h1 h2
        rw [hbelow, below_all (fun x hx => lt_of_le_of_lt (hdone x hx) h1), below_none, Nat.add_zero]
        intro x hx
        rcases List.mem_cons.mp hx with rfl | hx
        · exact h2
        · exact h2.trans (hr' x hx).1
      refine qIndexLoop_spec k (done ++ [q]) r' _ _ _ hrl hperm' hsort' ?_ (fun y hy => hr' y hy) ?_ ?_ hqp.2 ?_
      · intro x hx
        rcases List.mem_append.mp hx with hx | hx
        · exact (hdone x hx).trans hlt.le
        · simp at hx; subst hx; exact le_rfl
      · exact (hb _ hlt le_rfl).symm
      · rw [length_fillRange]; simpa using hlen
      · intro g hg
        rw [fillRange_get]
        rcases Nat.lt_trichotomy g prev with h1 | h1 | h1
        · rw [if_neg (by omega), List.getElem?_set_ne (by omega)]
          exact hidx g h1
        · subst h1
          rw [if_neg (by omega), List.getElem?_set_self (by omega)]
          unfold middle
          rw [hb (g + 1) (by omega) (by omega), hstart, hn]
          congr 4
          omega
        · rw [if_pos (by omega), List.getElem?_set_ne (by omega), List.getElem?_eq_getElem (by omega)]
          unfold middle
          rw [hb (g + 1) (by omega) (by omega), hb g h1 (by omega), hn]
          simp only [Option.map_some]
          congr 2
          omega
    · rw [if_neg hne]
      rw [not_not] at hne
      refine qIndexLoop_spec k (done ++ [q]) r' _ _ _ hrl hperm' hsort' ?_ (fun y hy => by rw [← hne]; exact hr' y hy) hstart hlen hprev hidx
      intro x hx
      rcases List.mem_append.mp hx with hx | hx
      · exact hdone x hx
      · simp at hx; subst hx; exact hne.le

/-- `inxbuild`: the rows are sorted by green and the index gives the middle of the rows of a green. -/
theorem qIndex_spec {cm : List CRow} (hcm : cm ≠ []) (h : ∀ r ∈ cm, r.2.1 < 256) : ∃ cm' idx, qIndex cm = .ok (cm', idx) ∧ cm'.Perm cm ∧
    cm'.Pairwise (fun a b => a.2.1 ≤ b.2.1) ∧ idx.length = 256 ∧ ∀ g, g < 256 → idx[g]? = some (some (middle cm g)) := by
  obtain ⟨cm', idx, prev, start, h1, h2, h3, h4, h5, h6, h7, h8⟩ := qIndexLoop_spec (cm0 := cm) cm.length [] cm (List.replicate 256 none) 0 0 rfl .rfl
    .nil (by simp) (fun y hy => ⟨Nat.zero_le _, h y hy⟩) (by rw [below_none]; simp) List.length_replicate (by omega) (fun g hg => by omega)
  have hpos : 0 < cm.length := List.length_pos_iff.mpr hcm
  have hall : ∀ g, prev < g → below cm g = cm.length := by
    intro g hg
    exact below_all fun x hx => lt_of_le_of_lt (h4 x (h2.symm.subset hx)) hg
  refine ⟨cm', fillRange (idx.set prev (some ((start + (cm.length - 1)) / 2))) (prev + 1) 256 (some (cm.length - 1)), ?_, h2, h3, by rw [length_fillRange]; simpa using h6, ?_⟩
  · unfold qIndex
    simp only [List.length_nil, List.nil_append] at h1
    rw [h1]
    rfl
  · intro g hg
    rw [fillRange_get]
    rcases Nat.lt_trichotomy g prev with k1 | k1 | k1
    · rw [if_neg (by omega), List.getElem?_set_ne (by omega)]
      exact h8 g k1
    · subst k1
      rw [if_neg (by omega), List.getElem?_set_self (by omega)]
      unfold middle
      rw [hall (g + 1) (by omega), h5]
      congr 4
      omega
    · rw [if_pos (by omega), List.getElem?_set_ne (by omega), List.getElem?_eq_getElem (by omega)]
      unfold middle
      rw [hall (g + 1) (by omega), hall g k1]
      simp only [Option.map_some]
      congr 2
      omega

/-! ### Bytes -/

theorem qByte_nat {k : Nat} (h : k ≤ 255) : qByte k = k := by
  unfold qByte
  have h0 : (0 : ℚ) ≤ 1 / 2 + (k : ℚ) := by positivity
  dsimp only
  rw [if_pos h0]
  have : ⌊(1 : ℚ) / 2 + k⌋ = k := by
    rw [Int.floor_eq_iff]; push_cast; constructor <;> linarith
  rw [this]
  omega

theorem qByte_le (x : ℚ) : qByte x ≤ 255 := by unfold qByte; dsimp only; omega

theorem qByte_near {x : ℚ} (h0 : 0 ≤ x) (h1 : x ≤ 255) : |(qByte x : ℚ) - x| ≤ 1 / 2 := by
  unfold qByte
  dsimp only
  rw [if_pos (by linarith)]
  have f1 := Int.floor_le (1 / 2 + x)
  have f2 := Int.lt_floor_add_one (1 / 2 + x)
  have z0 : 0 ≤ ⌊1 / 2 + x⌋ := Int.floor_nonneg.mpr (by linarith)
  have z1 : ⌊1 / 2 + x⌋ ≤ 255 := by
    have : ⌊1 / 2 + x⌋ < 256 := Int.floor_lt.mpr (by push_cast; linarith)
    omega
  obtain ⟨z, hz⟩ : ∃ z, ⌊1 / 2 + x⌋ = z := ⟨_, rfl⟩
  rw [hz] at f1 f2 z0 z1 ⊢
  have e : (((min 255 (max 0 z)).toNat : Nat) : ℚ) = (z : ℚ) := by
    have : ((min 255 (max 0 z)).toNat : Int) = z := by omega
    exact_mod_cast this
  rw [e, abs_le]
  constructor <;> linarith

theorem mem_qFix {s : QNet} {r : CRow} : r ∈ qFix s ↔ ∃ p, s.network[r.2.2.2]? = some p ∧ r.1 = qByte p.1 ∧ r.2.1 = qByte p.2.1 ∧ r.2.2.1 = qByte p.2.2 := by
  unfold qFix
  rw [List.mem_map]
  constructor
  · rintro ⟨⟨p, i⟩, hx, rfl⟩
    exact ⟨p, List.mem_zipIdx_iff_getElem?.mp hx, rfl, rfl, rfl⟩
  · rintro ⟨p, hp, h1, h2, h3⟩
    refine ⟨(p, r.2.2.2), List.mem_zipIdx_iff_getElem?.mpr hp, ?_⟩
    ext <;> simp [h1, h2, h3]

/-! ### Frequencies and biases -/

theorem sum_modify_add (x : ℚ) : ∀ (l : List ℚ) (k : Nat), k < l.length → (l.modify k (· + x)).sum = l.sum + x
  | [], k, h => by simp at h
  | a :: l, 0, _ => by simp; ring
  | a :: l, k + 1, h => by
    have := sum_modify_add x l k (by simpa using h)
    simp [this]; ring

theorem freqAfter_get {best m : Nat} {s : QNet} (hm : 3 ≤ m) {f : ℚ} (h : s.freq[m]? = some f) :
    (freqAfter best s)[m]? = some (f * (1 - 1 / 1024) + if m = best then 1 / 1024 else 0) := by
  have hl := (List.getElem?_eq_some_iff.mp h).1
  have e : (s.freq.take 3).length = 3 := by simp; omega
  unfold freqAfter
  rw [List.getElem?_modify, List.getElem?_append_right (by omega), e, List.getElem?_map, List.getElem?_drop, show 3 + (m - 3) = m by omega, h]
  by_cases hb : best = m
  · simp [hb]
  · simp [hb, Ne.symm hb]

theorem biasAfter_get {best m : Nat} {s : QNet} (hm : 3 ≤ m) {f b : ℚ} (h : s.freq[m]? = some f) (hb : s.bias[m]? = some b) :
    (biasAfter best s)[m]? = some (b + f * (1 - 1 / 1024) - if m = best then 1 else 0) := by
  have hl := (List.getElem?_eq_some_iff.mp hb).1
  have e : (s.bias.take 3).length = 3 := by simp; omega
  unfold biasAfter
  rw [List.getElem?_modify, List.getElem?_append_right (by omega), e, List.getElem?_zipWith, List.getElem?_map, List.getElem?_drop, List.getElem?_drop, show 3 + (m - 3) = m by omega, h, hb]
  by_cases hb : best = m
  · simp [hb]
  · simp [hb, Ne.symm hb]

theorem freqAfter_sum {best n : Nat} {s : QNet} (h : s.freq.length = n) (hb : 3 ≤ best) (hn : best < n) :
    ((freqAfter best s).drop 3).sum = (s.freq.drop 3).sum * (1 - 1 / 1024) + 1 / 1024 := by
  have e : (s.freq.take 3).length = 3 := by simp; omega
  unfold freqAfter
  rw [List.drop_modify_of_ge (· + 1 / 1024) best 3 _ hb, List.drop_append_of_le_length (by omega), List.drop_eq_nil_of_le (by omega), List.nil_append,
    sum_modify_add _ _ _ (by simp; omega), List.sum_map_mul_right]
  simp

end Verif
