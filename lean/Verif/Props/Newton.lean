import Verif.Model.Newton
import Verif.Lemmas.Py
import Verif.Props.Constrain
/- C33: what the root finding iterators give. -/
namespace Verif

section
variable {X K F M : Type} [DecidableEq X] (p : NewtonProblem X K F M)

/-! ## ConstrainedNewton -/

theorem conStep_ok {constraint : X → Py X} {size : Nat → Py K} {c : Nat} {x0 : X} {y : Yielded X K F} {b : Bool}
    (h : conStep p constraint size c x0 = .ok (y, b)) :
    p.f y.x = .ok y.fx ∧ y.norm = p.norm y.fx ∧ (5 ≤ c → ∃ z, constraint z = .ok y.x) ∧ (b = true ↔ y.x = x0) := by
  unfold conStep at h
  obtain ⟨fx, h1, h⟩ := bind_ok.mp h
  obtain ⟨Jx, h2, h⟩ := bind_ok.mp h
  obtain ⟨s, h3, h⟩ := bind_ok.mp h
  obtain ⟨l, h4, h⟩ := bind_ok.mp h
  by_cases hc : c + 1 ≤ 5
  · rw [if_pos hc] at h
    obtain ⟨x1, h5, h⟩ := bind_ok.mp h
    obtain ⟨fx1, h6, h⟩ := bind_ok.mp h
    cases h
    exact ⟨h6, rfl, fun h => absurd h (by omega), by simp⟩
  · rw [if_neg hc] at h
    obtain ⟨x1, h5, h⟩ := bind_ok.mp h
    obtain ⟨fx1, h6, h⟩ := bind_ok.mp h
    cases h
    exact ⟨h6, rfl, fun _ => ⟨_, h5⟩, by simp⟩

theorem conLoop_items (constraint : X → Py X) (size : Nat → Py K) : ∀ (n c : Nat) (x0 : X) (i : Nat) (y : Yielded X K F),
    (conLoop p constraint size n c x0).1[i]? = some y →
    p.f y.x = .ok y.fx ∧ y.norm = p.norm y.fx ∧ (5 ≤ c + i → ∃ z, constraint z = .ok y.x)
  | 0, c, x0, i, y, h => by
    have : (conLoop p constraint size 0 c x0).1 = [] := rfl
    rw [this] at h; simp at h
  | n + 1, c, x0, i, y, h => by
    unfold conLoop at h
    cases hs : conStep p constraint size c x0 with
    | error e => rw [hs] at h; simp at h
    | ok r =>
      obtain ⟨y0, b⟩ := r
      obtain ⟨a1, a2, a3, -⟩ := conStep_ok p hs
      rw [hs] at h
      cases b with
      | true =>
        dsimp only at h
        cases i with
        | zero =>
          have : y0 = y := by simpa using h
          subst this
          exact ⟨a1, a2, fun h => a3 (by omega)⟩
        | succ i => simp at h
      | false =>
        dsimp only at h
        cases i with
        | zero =>
          have : y0 = y := by simpa using h
          subst this
          exact ⟨a1, a2, fun h => a3 (by omega)⟩
        | succ i =>
          rw [List.getElem?_cons_succ] at h
          obtain ⟨b1, b2, b3⟩ := conLoop_items constraint size n (c + 1) y0.x i y h
          exact ⟨b1, b2, fun h => b3 (by omega)⟩

/-- C33: every triple of `ConstrainedNewton` has the value of the function at its point and the norm
of that value; from the sixth on the point is a result of the constraint. -/
theorem C33_constrained (constraint : X → Py X) (size : Nat → Py K) (n : Nat) (x0 : X) (i : Nat) (y : Yielded X K F)
    (h : (conNewton p constraint size n x0).1[i]? = some y) :
    p.f y.x = .ok y.fx ∧ y.norm = p.norm y.fx ∧ (5 ≤ i → ∃ z, constraint z = .ok y.x) := by
  unfold conNewton at h
  cases hf : p.f x0 with
  | error e => rw [hf] at h; simp at h
  | ok fx =>
    rw [hf] at h
    obtain ⟨a, b, c⟩ := conLoop_items p constraint size n 0 x0 i y h
    exact ⟨a, b, fun h => c (by omega)⟩

theorem conStep_flag (constraint : X → Py X) (size : Nat → Py K) {c : Nat} {x0 : X} {y : Yielded X K F} {b : Bool}
    (h : conStep p constraint size c x0 = .ok (y, b)) : b = decide (y.x = x0) := by
  unfold conStep at h
  obtain ⟨a1, -, h⟩ := bind_ok.mp h
  obtain ⟨a2, -, h⟩ := bind_ok.mp h
  obtain ⟨a3, -, h⟩ := bind_ok.mp h
  obtain ⟨a4, -, h⟩ := bind_ok.mp h
  dsimp only at h
  split at h <;>
  · obtain ⟨a5, -, h⟩ := bind_ok.mp h
    obtain ⟨a6, -, h⟩ := bind_ok.mp h
    cases h
    rfl

theorem conLoop_stops (constraint : X → Py X) (size : Nat → Py K) (n : Nat) : ∀ (c : Nat) (x0 : X),
    ((conLoop p constraint size n c x0).2 = .stopped → ∃ xs x,
      x0 :: (conLoop p constraint size n c x0).1.map (·.x) = xs ++ [x, x] ∧ List.IsChain (· ≠ ·) (xs ++ [x])) ∧
    ((conLoop p constraint size n c x0).2 = .running → (conLoop p constraint size n c x0).1.length = n ∧
      List.IsChain (· ≠ ·) (x0 :: (conLoop p constraint size n c x0).1.map (·.x))) := by
  induction n with
  | zero =>
    intro c x0
    exact ⟨fun h => (nomatch h), fun _ => ⟨rfl, .singleton _⟩⟩
  | succ n ih =>
    intro c x0
    unfold conLoop
    cases hs : conStep p constraint size c x0 with
    | error e => exact ⟨fun h => (nomatch h), fun h => (nomatch h)⟩
    | ok r =>
      obtain ⟨y, b⟩ := r
      have hb := conStep_flag p constraint size hs
      cases b with
      | true =>
        have hy : y.x = x0 := of_decide_eq_true hb.symm
        refine ⟨fun _ => ⟨[], x0, ?_, .singleton _⟩, fun h => (nomatch h)⟩
        simp [hy]
      | false =>
        have hy : y.x ≠ x0 := of_decide_eq_false hb.symm
        obtain ⟨i1, i2⟩ := ih (c + 1) y.x
        constructor
        · intro h
          obtain ⟨xs, x, e, hc⟩ := i1 h
          refine ⟨x0 :: xs, x, ?_, ?_⟩
          · rw [List.cons_append, ← e, List.map_cons]
          · cases xs with
            | nil =>
              rw [List.nil_append] at e
              have : y.x = x := (List.cons.inj e).1
              subst this
              exact List.isChain_cons_cons.mpr ⟨fun h => hy h.symm, .singleton _⟩
            | cons a xs =>
              have : y.x = a := (List.cons.inj e).1
              subst this
              exact List.isChain_cons_cons.mpr ⟨fun h => hy h.symm, hc⟩
        · intro h
          obtain ⟨e, hc⟩ := i2 h
          refine ⟨by rw [List.length_cons, e], ?_⟩
          rw [List.map_cons]
          exact List.isChain_cons_cons.mpr ⟨fun h => hy h.symm, hc⟩

/-- C33: `ConstrainedNewton` ends by itself exactly at a point equal to the one before it, which is reported too; no
earlier point is equal to the one before it. As long as it has not ended every round reports a point. -/
theorem C33_stops (constraint : X → Py X) (size : Nat → Py K) (n : Nat) (x0 : X) :
    ((conNewton p constraint size n x0).2 = .stopped → ∃ xs x,
      x0 :: (conNewton p constraint size n x0).1.map (·.x) = xs ++ [x, x] ∧ List.IsChain (· ≠ ·) (xs ++ [x])) ∧
    ((conNewton p constraint size n x0).2 = .running → (conNewton p constraint size n x0).1.length = n ∧
      List.IsChain (· ≠ ·) (x0 :: (conNewton p constraint size n x0).1.map (·.x))) := by
  unfold conNewton
  cases p.f x0 with
  | error e => exact ⟨fun h => (nomatch h), fun h => (nomatch h)⟩
  | ok fx => exact conLoop_stops p constraint size n 0 x0

/-- C33: a singular derivative is reported as `ValueError`, which `get_steady_state_cvgs` does not
catch. -/
theorem C33_singular (constraint : X → Py X) (size : Nat → Py K) (n : Nat) (x0 : X) (fx : F) (Jx : M) (hf : p.f x0 = .ok fx)
    (hJ : p.J x0 = .ok Jx) (hs : p.solve Jx fx = .error .ZeroDivisionError) :
    conNewton p constraint size (n + 1) x0 = ([], .raised .ValueError) := by
  unfold conNewton
  rw [hf]
  unfold conLoop conStep
  rw [hf]
  simp only [bind, Except.bind, hJ, hs, renameZeroDivision]

/-! ## MDNewton -/

section
variable [LinearOrder K]

theorem lineSearch_ok {half : K → K} {x0 s : X} {fxnorm : K} : ∀ {n : Nat} {l : K} {fx : F} {x1 : X} {n1 : K} {fx1 : F},
    lineSearch p half x0 s fxnorm n l fx = some (.ok (.accepted x1 n1 fx1)) →
    p.f x1 = .ok fx1 ∧ n1 = p.norm fx1 ∧ n1 < fxnorm ∧ x1 ≠ x0
  | 0, _, _, _, _, _, h => nomatch h
  | n + 1, l, fx, x1, n1, fx1, h => by
    unfold lineSearch at h
    split at h
    · cases h
    · rename_i hne
      split at h
      · cases h
      · rename_i fx' hf
        split at h
        · rename_i hlt
          cases h
          exact ⟨hf, rfl, hlt, hne⟩
        · exact lineSearch_ok h

/-- What holds for the items that follow a point with norm `b`: values and norms belong to the
points, and norms fall. -/
def MDItems (b : K) : List (Yielded X K F) → IterEnd → Prop
  | [], _ => True
  | y :: rest, e =>
    (∃ fx, p.f y.x = .ok fx ∧ y.norm = p.norm fx ∧ (y.fx = fx ∨ (rest = [] ∧ e = .stopped))) ∧
    y.norm ≤ b ∧ (y.norm = b → rest = [] ∧ e = .stopped) ∧ MDItems y.norm rest e

theorem mdLoop_items (one : K) (half : K → K) (m : Nat) : ∀ (n : Nat) (x0 : X) (fx : F), p.f x0 = .ok fx →
    MDItems p (p.norm fx) (mdLoop p one half m n x0 (p.norm fx) fx).1 (mdLoop p one half m n x0 (p.norm fx) fx).2
  | 0, x0, fx, _ => trivial
  | n + 1, x0, fx, hf => by
    have e : mdLoop p one half m (n + 1) x0 (p.norm fx) fx = (match p.J x0 with
        | .error e => ([], .raised e)
        | .ok Jx =>
          match p.solve Jx fx with
          | .error e => ([], .raised e)
          | .ok s =>
            match lineSearch p half x0 s (p.norm fx) m one fx with
            | none => ([], .running)
            | some (.error e) => ([], .raised e)
            | some (.ok (.stationary fx')) => ([⟨x0, p.norm fx, fx'⟩], .stopped)
            | some (.ok (.accepted x1 norm1 fx1)) =>
              let r := mdLoop p one half m n x1 norm1 fx1
              (⟨x1, norm1, fx1⟩ :: r.1, r.2)) := rfl
    rw [e]
    cases p.J x0 with
    | error e => trivial
    | ok Jx =>
      dsimp only
      cases p.solve Jx fx with
      | error e => trivial
      | ok s =>
        dsimp only
        cases hl : lineSearch p half x0 s (p.norm fx) m one fx with
        | none => trivial
        | some r =>
          cases r with
          | error e => trivial
          | ok r =>
            cases r with
            | stationary fx' => exact ⟨⟨fx, hf, rfl, .inr ⟨rfl, rfl⟩⟩, le_refl _, fun _ => ⟨rfl, rfl⟩, trivial⟩
            | accepted x1 n1 fx1 =>
              obtain ⟨h1, rfl, h3, h4⟩ := lineSearch_ok p hl
              exact ⟨⟨fx1, h1, rfl, .inl rfl⟩, h3.le, fun h => absurd h h3.ne, mdLoop_items one half m n x1 fx1 h1⟩

omit [DecidableEq X] in
theorem mdItems_norms {b : K} : ∀ {l : List (Yielded X K F)} {e : IterEnd}, MDItems p b l e →
    (∀ y ∈ l, y.norm ≤ b) ∧ l.Pairwise (fun y z => z.norm ≤ y.norm)
  | [], _, _ => ⟨by simp, .nil⟩
  | y :: rest, e, ⟨_, h2, _, h4⟩ => by
    obtain ⟨i1, i2⟩ := mdItems_norms h4
    refine ⟨?_, List.pairwise_cons.mpr ⟨i1, i2⟩⟩
    intro z hz
    rcases List.mem_cons.mp hz with rfl | hz
    · exact h2
    · exact (i1 z hz).trans h2

omit [DecidableEq X] in
theorem mdItems_value {b : K} : ∀ {l : List (Yielded X K F)} {e : IterEnd}, MDItems p b l e →
    ∀ i y, l[i]? = some y → ∃ fx, p.f y.x = .ok fx ∧ y.norm = p.norm fx ∧ (y.fx = fx ∨ (i + 1 = l.length ∧ e = .stopped))
  | [], _, _, i, y, h => by simp at h
  | z :: rest, e, ⟨h1, _, _, h4⟩, i, y, h => by
    cases i with
    | zero =>
      have : z = y := by simpa using h
      subst this
      obtain ⟨fx, a, b, c⟩ := h1
      refine ⟨fx, a, b, c.imp_right fun ⟨c1, c2⟩ => ⟨by rw [c1]; rfl, c2⟩⟩
    | succ i =>
      rw [List.getElem?_cons_succ] at h
      obtain ⟨fx, a, b, c⟩ := mdItems_value h4 i y h
      exact ⟨fx, a, b, c.imp_right fun ⟨c1, c2⟩ => ⟨by rw [List.length_cons]; omega, c2⟩⟩

/-- C33: with `MDNewton` every norm belongs to its point, no norm is larger than that of the start or
an earlier one, and an equal norm ends the iteration. -/
theorem C33_norms (one : K) (half : K → K) (m n : Nat) (x0 : X) (fx : F) (hf : p.f x0 = .ok fx) :
    (∀ y ∈ (mdNewton p one half m n x0).1, y.norm ≤ p.norm fx ∧ ∃ fy, p.f y.x = .ok fy ∧ y.norm = p.norm fy) ∧
    (mdNewton p one half m n x0).1.Pairwise (fun y z => z.norm ≤ y.norm) := by
  have hi := mdLoop_items p one half m n x0 fx hf
  have e : mdNewton p one half m n x0 = mdLoop p one half m n x0 (p.norm fx) fx := by unfold mdNewton; rw [hf]
  rw [e]
  obtain ⟨a, b⟩ := mdItems_norms p hi
  refine ⟨fun y hy => ⟨a y hy, ?_⟩, b⟩
  obtain ⟨i, hi'⟩ := List.mem_iff_getElem?.mp hy
  obtain ⟨fy, h1, h2, -⟩ := mdItems_value p hi i y hi'
  exact ⟨fy, h1, h2⟩

/-- C33: if the function cannot be evaluated at the start, nothing is yielded and the error is passed on. -/
theorem C33_bad_start (one : K) (half : K → K) (m n : Nat) (x0 : X) (e : PyErr) (hf : p.f x0 = .error e) :
    mdNewton p one half m n x0 = ([], .raised e) := by
  unfold mdNewton
  rw [hf]

/-- C33, partial: the reported value is that of the reported point, except for the last triple of an
iteration ended by a stationary point (`C33_value_refuted`). -/
theorem C33_value_partial (one : K) (half : K → K) (m n : Nat) (x0 : X) (fx : F) (hf : p.f x0 = .ok fx) (i : Nat) (y : Yielded X K F)
    (hy : (mdNewton p one half m n x0).1[i]? = some y)
    (hlast : (mdNewton p one half m n x0).2 ≠ .stopped ∨ i + 1 < (mdNewton p one half m n x0).1.length) :
    p.f y.x = .ok y.fx := by
  have hi := mdLoop_items p one half m n x0 fx hf
  have e : mdNewton p one half m n x0 = mdLoop p one half m n x0 (p.norm fx) fx := by unfold mdNewton; rw [hf]
  rw [e] at hy hlast
  obtain ⟨fy, h1, h2, h3⟩ := mdItems_value p hi i y hy
  rcases h3 with h3 | ⟨h3, h4⟩
  · rw [h3]; exact h1
  · rcases hlast with h | h
    · exact absurd h4 h
    · omega

/-- C33: for a system that is affine along the computed step, the first step of `MDNewton` lands on
a root, unless the start is one. -/
theorem C33_affine (one : K) (half : K → K) (m n : Nat) (x0 s : X) (fx f1 : F) (Jx : M) (hf : p.f x0 = .ok fx) (hJ : p.J x0 = .ok Jx)
    (hs : p.solve Jx fx = .ok s) (hroot : p.f (p.move x0 one s) = .ok f1) (hmove : p.move x0 one s ≠ x0) (hzero : p.norm f1 < p.norm fx) :
    ∃ rest, (mdNewton p one half (m + 1) (n + 1) x0).1 = ⟨p.move x0 one s, p.norm f1, f1⟩ :: rest := by
  have hl : lineSearch p half x0 s (p.norm fx) (m + 1) one fx = some (.ok (.accepted (p.move x0 one s) (p.norm f1) f1)) := by
    unfold lineSearch
    rw [if_neg hmove, hroot]
    exact if_pos hzero
  unfold mdNewton
  rw [hf]
  unfold mdLoop
  dsimp only
  rw [hJ]
  dsimp only
  rw [hs]
  dsimp only
  rw [hl]
  exact ⟨_, rfl⟩

end
end

theorem adsCoverages_take {K : Type} {ads : List Str} (cvgs : List K) : ∀ (l : List Str) (d : Dict Str K), (∀ a ∈ l, a ∈ ads) →
    adsCoverages ads (cvgs.take ads.length) d l = adsCoverages ads cvgs d l
  | [], _, _ => rfl
  | a :: l, d, h => by
    unfold adsCoverages
    rw [List.getElem?_take_of_lt (List.idxOf_lt_length_of_mem (h a (by simp)))]
    cases cvgs[ads.idxOf a]? with
    | none => rfl
    | some c => exact adsCoverages_take cvgs l _ (fun b hb => h b (by simp [hb]))

theorem constrain_take {K : Type} [Field K] [LinearOrder K] (o : MFOwner K) (cvgs : List K) :
    constrainCoverages o (cvgs.take o.net.ads.length) = constrainCoverages o cvgs := by
  unfold constrainCoverages cvgTuple2Dict
  rw [adsCoverages_take cvgs _ _ (fun a h => h)]

theorem constrain_physical {K : Type} [Field K] [LinearOrder K] [IsStrictOrderedRing K] (o : MFOwner K) (total P C : Str → K)
    (h : Ready o total P C) (hpos : ∀ s ∈ o.net.sites, 0 ≤ total s) {z out : List K} (hz : constrainCoverages o z = .ok out) :
    Physical o.net total out := by
  by_cases hlen : z.length < o.net.ads.length
  · rw [C24_short_tuple o h.parse z hlen] at hz; cases hz
  · have hz' : constrainCoverages o (z.take o.net.ads.length) = .ok out := by rw [← hz, constrain_take o]
    obtain ⟨out', h1, h2, -⟩ := C24_physical o total P C h hpos (z.take o.net.ads.length) (by rw [List.length_take]; omega)
    rw [h1] at hz'
    cases hz'
    exact h2

/-- C33 for coverages: with the constraint of the solver every point from the sixth on is
physical. -/
theorem C33_physical {K F M : Type} [Field K] [LinearOrder K] [IsStrictOrderedRing K] (o : MFOwner K) (total P C : Str → K) (h : Ready o total P C)
    (hpos : ∀ s ∈ o.net.sites, 0 ≤ total s) (p : NewtonProblem (List K) K F M) (size : Nat → Py K) (n : Nat) (x0 : List K) (i : Nat)
    (y : Yielded (List K) K F) (hy : (conNewton p (constrainCoverages o) size n x0).1[i]? = some y) (hi : 5 ≤ i) :
    Physical o.net total y.x := by
  obtain ⟨z, hz⟩ := (C33_constrained p _ size n x0 i y hy).2.2 hi
  exact constrain_physical o total P C h hpos hz

/-- Whole numbers, steps rounded towards zero, `f x = 1 + x + 2 x²`. -/
def exNewton : NewtonProblem Int ℚ Int Int where
  f x := .ok (1 + x + 2 * x ^ 2)
  J x := .ok (1 + 4 * x)
  solve j v := if j = 0 then .error .ZeroDivisionError else .ok ((-v).tdiv j)
  norm v := |(v : ℚ)|
  move x l s := x + ((l * s).num.tdiv (l * s).den)

example : mdNewton { exNewton with f := fun x => if x = 0 then .error .ZeroDivisionError else .ok x } 1 (· / 2) 5 5 0 = ([], .raised .ZeroDivisionError) :=
  C33_bad_start _ _ _ _ _ _ _ rfl

/-- C33, refuted: at a stationary point the reported value is that of a rejected point. -/
theorem C33_value_refuted : mdNewton exNewton 1 (· / 2) 5 5 0 = ([⟨0, 1, 2⟩], .stopped) ∧ exNewton.f 0 = .ok 1 := by
  decide +kernel

/-- An iteration with an accepted step: `f x = 3 x - 6` from 5. -/
def exNewton' : NewtonProblem Int ℚ Int Int where
  f x := .ok (3 * x - 6)
  J _ := .ok 3
  solve j v := if j = 0 then .error .ZeroDivisionError else .ok ((-v).tdiv j)
  norm v := |(v : ℚ)|
  move x l s := x + ((l * s).num.tdiv (l * s).den)

example : mdNewton exNewton' 1 (· / 2) 5 5 5 = ([⟨2, 0, 0⟩, ⟨2, 0, 0⟩], .stopped) ∧
    conNewton exNewton' (fun x => .ok (max 0 x)) (fun _ => .ok 1) 8 5 = ([⟨2, 0, 0⟩, ⟨2, 0, 0⟩], .stopped) ∧
    (conNewton exNewton' (fun x => .ok (max 0 x)) (fun _ => .ok 3) 7 1).1[6]? = some ⟨6, 12, 12⟩ := by decide +kernel

/-! ### The theorems at these cases -/

example := C33_constrained exNewton' (fun x => .ok (max 0 x)) (fun _ => .ok 3) 7 1 6 ⟨6, 12, 12⟩ (by decide +kernel)

example := (C33_stops exNewton' (fun x => .ok (max 0 x)) (fun _ => .ok 1) 8 5).1 (by decide +kernel)

example := C33_singular { exNewton' with J := fun _ => .ok 0 } (fun x => .ok x) (fun _ => .ok 1) 4 5 9 0 rfl rfl rfl

example := C33_norms exNewton' 1 (· / 2) 5 5 5 9 rfl

example := C33_value_partial exNewton' 1 (· / 2) 5 5 5 9 rfl 0 ⟨2, 0, 0⟩ (by decide +kernel) (.inr (by decide +kernel))

example := C33_affine exNewton' 1 (· / 2) 4 4 5 (-3) 9 0 3 rfl rfl (by decide) (by decide +kernel) (by decide +kernel) (by decide +kernel)

end Verif
