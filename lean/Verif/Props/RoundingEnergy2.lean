import Verif.Props.RoundingEnergy
/-
C131: corrections of energies in finite precision.
-/
namespace Verif
open Dict

theorem add_size {A : Arith} {u : ℝ} (h : A.Rounds u) (hu : u < 1) (x y : ℝ) : |A.add x y - (x + y)| ≤ u / (1 - u) * |A.add x y| := by
  have h1 := h.add x y
  have h0 := h.nonneg
  unfold Within at h1
  rw [add_sub_cancel_left] at h1
  have h2 := abs_sub_abs_le_abs_sub (x + y) (A.add x y)
  rw [abs_sub_comm (x + y)] at h2
  have h3 : (1 - u) * |x + y| ≤ |A.add x y| := by linarith
  have h4 : |x + y| ≤ |A.add x y| / (1 - u) := by
    rw [le_div_iff₀ (by linarith)]
    linarith
  calc |A.add x y - (x + y)| ≤ u * |x + y| := h1
    _ ≤ u * (|A.add x y| / (1 - u)) := mul_le_mul_of_nonneg_left h4 h0
    _ = u / (1 - u) * |A.add x y| := by ring

/-- One reaction. Without a transition state the energies are made anew and are consistent up to roundings of the results,
whatever they were before. With one, the inconsistency grows by at most the roundings of the results and of the differences of the
corrections. -/
theorem rdChangeRel_two {A : Arith} {u : ℝ} (h : A.Rounds u) (hu : u < 1) (v : Rel1 ℝ) (a b : ℝ) :
    |(rdChangeRel A v [a, b]).gaf - (rdChangeRel A v [a, b]).gar - (rdChangeRel A v [a, b]).dg| ≤
      u / (1 - u) * (|(rdChangeRel A v [a, b]).gaf| + |(rdChangeRel A v [a, b]).gar| + |(rdChangeRel A v [a, b]).dg|) := by
  simp only [rdChangeRel]
  set x := A.add 0 a
  set y := A.add (A.add 0 v.dg) b
  set z := max x y
  have a1 := abs_le.mp (sub_size h hu z x)
  have a2 := abs_le.mp (sub_size h hu z y)
  have a3 := abs_le.mp (sub_size h hu y x)
  rw [abs_le]
  constructor <;> nlinarith

theorem rdChangeRel_three {A : Arith} {u : ℝ} (h : A.Rounds u) (hu : u < 1) (v : Rel1 ℝ) (a t b : ℝ) :
    |(rdChangeRel A v [a, t, b]).gaf - (rdChangeRel A v [a, t, b]).gar - (rdChangeRel A v [a, t, b]).dg| ≤
      |v.gaf - v.gar - v.dg| + u / (1 - u) * (|(rdChangeRel A v [a, t, b]).gaf| + |(rdChangeRel A v [a, t, b]).gar| + |(rdChangeRel A v [a, t, b]).dg|)
        + u * (|t - a| + |t - b| + |b - a|) := by
  simp only [rdChangeRel]
  have a1 := abs_le.mp (add_size h hu v.gaf (A.sub t a))
  have a2 := abs_le.mp (add_size h hu v.gar (A.sub t b))
  have a3 := abs_le.mp (add_size h hu v.dg (A.sub b a))
  have s : ∀ x y, |A.sub x y - (x - y)| ≤ u * |x - y| := fun x y => by
    have := h.sub x y
    unfold Within at this
    rwa [add_sub_cancel_left] at this
  have b1 := abs_le.mp (s t a)
  have b2 := abs_le.mp (s t b)
  have b3 := abs_le.mp (s b a)
  have c1 := abs_le.mp (le_refl |v.gaf - v.gar - v.dg|)
  rw [abs_le]
  constructor <;> nlinarith

/-- The computed correction of a state: the corrections of its formulas added up from zero in their order. -/
noncomputable def addedUp (A : Arith) (c : Str → ℝ) (fs : List Formula) : ℝ := (fs.map fun f => c f.text).foldl A.add 0

theorem rdStateDelta_ok {A : Arith} {corr : Str → Py ℝ} {c : Str → ℝ} (hc : Agrees c corr) {fs : List Formula}
    {acc d : ℝ} (h : rdStateDelta A corr fs acc = .ok d) : d = (fs.map fun f => c f.text).foldl A.add acc := by
  induction fs generalizing acc with
  | nil => simp only [rdStateDelta] at h; cases h; simp
  | cons f fs ih =>
    simp only [rdStateDelta] at h
    cases hf : corr f.text with
    | error e => rw [hf] at h; cases h
    | ok v =>
      rw [hf] at h
      rw [ih h, ← hc _ _ hf]
      rfl

theorem rdDeltas_ok {A : Arith} {corr : Str → Py ℝ} {c : Str → ℝ} (hc : Agrees c corr) {states : List (List Formula)}
    {ds : List ℝ} (h : states.mapM (fun fs => rdStateDelta A corr fs 0) = .ok ds) :
    ds = states.map (addedUp A c) := by
  obtain ⟨h1, h2⟩ := mapM_ok_inv h
  apply List.ext_getElem (by simp [h1])
  intro i hi _
  have := rdStateDelta_ok hc (h2 i (by omega) hi)
  rw [this, List.getElem_map]
  rfl

theorem rdCorrectFrom_ok {A : Arith} {corr : Str → Py ℝ} {c : Str → ℝ} (hc : Agrees c corr)
    {rxns : List (List (List Formula))} {i : Nat} {r r' : Rel ℝ} (h : rdCorrectFrom A corr rxns i r = .ok r') :
    r'.gaf.length = r.gaf.length ∧ r'.gar.length = r.gar.length ∧ r'.dg.length = r.dg.length ∧
    (∀ j, (j < i ∨ i + rxns.length ≤ j) → r'.at? j = r.at? j) ∧
    (∀ j (hj : j < rxns.length), ∃ v, r.at? (i + j) = .ok v ∧
      r'.at? (i + j) = .ok (rdChangeRel A v (rxns[j].map (addedUp A c)))) := by
  induction rxns generalizing i r with
  | nil => simp only [rdCorrectFrom] at h; cases h; simp
  | cons states rest ih =>
    simp only [rdCorrectFrom, rdCorrectOne] at h
    cases hv : r.at? i with
    | error e => rw [hv] at h; cases h
    | ok v =>
      rw [hv] at h
      cases hd : states.mapM (fun fs => rdStateDelta A corr fs 0) with
      | error e => rw [hd] at h; cases h
      | ok ds =>
        rw [hd] at h
        have h : rdCorrectFrom A corr rest (i + 1) (r.setAt i (rdChangeRel A v ds)) = .ok r' := h
        obtain ⟨i1, i2, i3, i4, i5⟩ := ih h
        have hds := rdDeltas_ok hc hd
        refine ⟨by simpa [Rel.setAt] using i1, by simpa [Rel.setAt] using i2, by simpa [Rel.setAt] using i3, ?_, ?_⟩
        · intro j hj
          rw [List.length_cons] at hj
          rw [i4 j (by omega), at?_setAt_ne (by omega)]
        · intro j hj
          cases j with
          | zero =>
            refine ⟨v, hv, ?_⟩
            rw [Nat.add_zero, i4 i (by omega), at?_setAt_self hv, hds]
            rfl
          | succ j =>
            obtain ⟨w, hw, hw'⟩ := i5 j (by simpa using hj)
            rw [at?_setAt_ne (by omega)] at hw
            refine ⟨w, by rw [← hw]; congr 1; omega, ?_⟩
            have : i + (j + 1) = i + 1 + j := by omega
            rw [this, hw']
            rfl

/-- The correction of every reaction of a model in finite precision. The energies of a reaction without a transition state are consistent
afterwards up to roundings of the results, whatever they were before; with one, the inconsistency grows by at most roundings of the
results and of the differences of the corrections of its states. The corrections of the states are those of their formulas up to
rounding. -/
theorem C131_correction (A : Arith) (u : ℝ) (h : A.Rounds u) (hu : u < 1) (corr : Str → Py ℝ) (c : Str → ℝ) (hc : Agrees c corr)
    (rxns : List Str) (n : Network) (hn : parseNetwork rxns = .ok n) (r r' : Rel ℝ) (hr : rdCorrectFrom A corr n.rxns 0 r = .ok r') :
    r'.gaf.length = r.gaf.length ∧ r'.gar.length = r.gar.length ∧ r'.dg.length = r.dg.length ∧
    ∀ i (hi : i < rxns.length), ∃ states v w, eqnFormulas rxns[i] = .ok states ∧ r.at? i = .ok v ∧ r'.at? i = .ok w ∧
      (states.length = 2 → |w.gaf - w.gar - w.dg| ≤ u / (1 - u) * (|w.gaf| + |w.gar| + |w.dg|)) ∧
      (∀ a t b, states = [a, t, b] → ∃ x y z, |w.gaf - w.gar - w.dg| ≤ |v.gaf - v.gar - v.dg| + u / (1 - u) * (|w.gaf| + |w.gar| + |w.dg|)
          + u * (|y - x| + |y - z| + |z - x|) ∧
        |x - specDelta c a| ≤ ((1 + u) ^ a.length - 1) * (a.map fun f => |c f.text|).sum ∧
        |y - specDelta c t| ≤ ((1 + u) ^ t.length - 1) * (t.map fun f => |c f.text|).sum ∧
        |z - specDelta c b| ≤ ((1 + u) ^ b.length - 1) * (b.map fun f => |c f.text|).sum) := by
  obtain ⟨i1, i2, i3, -, i5⟩ := rdCorrectFrom_ok hc hr
  refine ⟨i1, i2, i3, ?_⟩
  intro i hi
  obtain ⟨hlen, hget⟩ := mapM_ok_inv (parseNetwork_ok hn).1
  obtain ⟨v, hv, hw⟩ := i5 i (by omega)
  rw [Nat.zero_add] at hv hw
  refine ⟨n.rxns[i]'(by omega), v, _, (parseRxn_ok.mp (hget i hi (by omega))).2, hv, hw, ?_, ?_⟩
  · intro hl
    obtain ⟨a, b, e⟩ := List.length_eq_two.mp hl
    rw [e]
    exact rdChangeRel_two h hu v _ _
  · intro a t b e
    rw [e]
    have near : ∀ fs : List Formula, |addedUp A c fs - specDelta c fs| ≤ ((1 + u) ^ fs.length - 1) * (fs.map fun f => |c f.text|).sum := by
      intro fs
      have := near_sum0 h (fs.map fun f => c f.text)
      rwa [List.length_map, List.map_map] at this
    exact ⟨_, _, _, rdChangeRel_three h hu v (addedUp A c a) (addedUp A c t) (addedUp A c b), near a, near t, near b⟩

/-- Without rounding this is the correction of the other files. -/
theorem C131_exact_correction (corr : Str → Py ℝ) (n : Network) (r : Rel ℝ) : rdCorrectFrom Arith.exact corr n.rxns 0 r = correctAll corr n r := by
  have h0 : ∀ (fs : List Formula) (s : ℝ), rdStateDelta Arith.exact corr fs s = stateDelta corr fs s := by
    intro fs
    induction fs with
    | nil => exact fun _ => rfl
    | cons f fs ih =>
      intro s
      unfold rdStateDelta stateDelta
      exact congrArg _ (funext fun e => ih _)
  have h1 : ∀ v ds, rdChangeRel Arith.exact v ds = changeRel v ds := by
    intro v ds
    unfold rdChangeRel changeRel
    rcases ds with _ | ⟨a, _ | ⟨b, _ | ⟨c, _ | ⟨d, l⟩⟩⟩⟩ <;> rfl
  have h2 : ∀ l i r, rdCorrectFrom Arith.exact corr l i r = correctFrom corr l i r := by
    intro l
    induction l with
    | nil => exact fun _ _ => rfl
    | cons s l ih =>
      intro i r
      unfold rdCorrectFrom correctFrom rdCorrectOne correctOne
      simp only [h0, h1, ih]
  exact h2 _ _ _

/-- An isomerisation and an adsorption with corrections of one hundredth for every formula. -/
example : ∃ n r', parseNetwork [str! "CO_s <-> C-O_s -> OC_s", str! "CO_g + *_s -> CO_s"] = .ok n ∧
    rdCorrectFrom (Arith.digits 53) (fun _ => .ok (1 / 100)) n.rxns 0 ⟨[1, 0], [3 / 2, 1], [-(1 / 2), -1]⟩ = .ok r' ∧ r'.gaf.length = 2 := by
  have hn : parseNetwork [str! "CO_s <-> C-O_s -> OC_s", str! "CO_g + *_s -> CO_s"] = .ok (netOf [str! "CO_s <-> C-O_s -> OC_s", str! "CO_g + *_s -> CO_s"]) := by decide
  have hx : ∃ r', rdCorrectFrom (Arith.digits 53) (fun _ => .ok (1 / 100)) (netOf [str! "CO_s <-> C-O_s -> OC_s", str! "CO_g + *_s -> CO_s"]).rxns 0
      ⟨[1, 0], [3 / 2, 1], [-(1 / 2), -1]⟩ = .ok r' := by
    rw [show (netOf [str! "CO_s <-> C-O_s -> OC_s", str! "CO_g + *_s -> CO_s"]).rxns =
      [[[⟨str! "CO_s", 1, str! "CO", 1, str! "s", str! "CO_s"⟩], [⟨str! "C-O_s", 1, str! "C-O", 1, str! "s", str! "C-O_s"⟩],
        [⟨str! "OC_s", 1, str! "OC", 1, str! "s", str! "OC_s"⟩]],
       [[⟨str! "CO_g", 1, str! "CO", 1, str! "g", str! "CO_g"⟩, ⟨str! "*_s", 1, str! "*", 1, str! "s", str! "*_s"⟩],
        [⟨str! "CO_s", 1, str! "CO", 1, str! "s", str! "CO_s"⟩]]] by decide]
    exact ⟨_, rfl⟩
  obtain ⟨r', hr'⟩ := hx
  exact ⟨_, r', hn, hr', (C131_correction (Arith.digits 53) _ (digits_rounds 53) (by norm_num) _ (fun _ => 1 / 100) (fun _ _ e => Except.ok.inj e) _ _ hn _ _ hr').1⟩

end Verif
