import Verif.Props.Util
import Verif.Props.Load
import Verif.Props.Symbolic
import Verif.Props.Coords
import Verif.Props.Gif
import Verif.Props.Run
import Verif.Props.Rates
import Verif.Props.DataFile
import Verif.Props.Checks
import Verif.Props.Energy
import Verif.Props.KmcRun
import Verif.Props.Descriptors
import Mathlib.Tactic.FieldSimp
import Mathlib.Tactic.Ring
/-
Further exact errors, and the error of finite differences for functions that are not affine. These statements were
added because mutations of the model survived the statements elsewhere.
-/
namespace Verif
open Dict

/-! ## Finite differences -/

section
variable {K : Type} [Field K] [LinearOrder K] [IsStrictOrderedRing K]

theorem stepOf_eq (h x : K) (hh : 0 < h) : stepOf h x = h * max |x| 1 := by
  unfold stepOf
  rw [abs_mul, abs_of_pos hh, mul_max_of_nonneg _ _ hh.le, mul_one]

omit [LinearOrder K] [IsStrictOrderedRing K] in
theorem quad_quotient (rows : List (K × K × K)) (x d : K) (hd : d ≠ 0) :
    List.zipWith (fun a b => (a - b) / d) (rows.map fun r => r.1 * (x + d) ^ 2 + r.2.1 * (x + d) + r.2.2)
      (rows.map fun r => r.1 * x ^ 2 + r.2.1 * x + r.2.2) = rows.map fun r => 2 * r.1 * x + r.2.1 + r.1 * d := by
  induction rows with
  | nil => rfl
  | cons r l ih =>
    rw [List.map_cons, List.map_cons, List.map_cons, List.zipWith_cons_cons, ih]
    congr 1
    field_simp
    ring

theorem columns_quad {f : List K → Py (List K)} {x : List K} {h : K} {dir : Nat → Direction} {J : List (List K)} {j : Nat} {xj : K}
    {rows : List (K × K × K)} (hJ : (do let fx ← f x; (List.range x.length).mapM fun i => diffColumn f x fx h (dir i) i) = .ok J)
    (hh : 0 < h) (hx : x[j]? = some xj) (hf : ∀ t, f (x.set j t) = .ok (rows.map fun r => r.1 * t ^ 2 + r.2.1 * t + r.2.2)) :
    (dir j = .right → J[j]? = some (rows.map fun r => 2 * r.1 * xj + r.2.1 + r.1 * (h * max |xj| 1))) ∧
    (dir j = .left → J[j]? = some (rows.map fun r => 2 * r.1 * xj + r.2.1 - r.1 * (h * max |xj| 1))) := by
  obtain ⟨hj, hxe⟩ := List.getElem?_eq_some_iff.mp hx
  have hself : x.set j xj = x := by rw [← hxe, List.set_getElem_self]
  have hfx := hf xj
  rw [hself] at hfx
  rw [hfx] at hJ
  obtain ⟨jl, jg⟩ := mapM_ok_inv (f := fun i => diffColumn f x _ h (dir i) i) hJ
  rw [List.length_range] at jl
  have hc := jg j (by simpa using hj) (by omega)
  rw [List.getElem_range] at hc
  have hd : stepOf h xj ≠ 0 := by
    rw [stepOf_eq h xj hh]
    exact (mul_pos hh (lt_of_lt_of_le one_pos (le_max_right _ _))).ne'
  rw [List.getElem?_eq_getElem (by omega)]
  constructor
  · intro hdir
    unfold diffColumn at hc
    rw [hx, hdir] at hc
    dsimp only at hc
    rw [hf] at hc
    simp only [bind, Except.bind] at hc
    rw [if_neg hd, quad_quotient rows xj _ hd, stepOf_eq h xj hh] at hc
    rw [← Except.ok.inj hc]
  · intro hdir
    unfold diffColumn at hc
    rw [hx, hdir] at hc
    dsimp only at hc
    rw [hf] at hc
    simp only [bind, Except.bind] at hc
    rw [if_neg (neg_ne_zero.mpr hd), sub_eq_add_neg, quad_quotient rows xj _ (neg_ne_zero.mpr hd), stepOf_eq h xj hh] at hc
    rw [← Except.ok.inj hc]
    simp only [mul_neg, sub_eq_add_neg]

/-- **C60** The error of the finite differences for functions that are quadratic in a variable: the second-order
coefficient times the step, which is the perturbation times `max(|x|, 1)`. To the right it is added, to the left it is
subtracted. The step therefore scales with the variable only where the variable is larger than one. -/
theorem C60_quadratic (f : List K → Py (List K)) (x : List K) (h : K) (dir : Direction) (J : List (List K)) (j : Nat) (xj : K)
    (rows : List (K × K × K)) (hJ : numericalJacobian f x h dir = .ok J) (hh : 0 < h) (hx : x[j]? = some xj)
    (hf : ∀ t, f (x.set j t) = .ok (rows.map fun r => r.1 * t ^ 2 + r.2.1 * t + r.2.2)) :
    (dir = .right → J[j]? = some (rows.map fun r => 2 * r.1 * xj + r.2.1 + r.1 * (h * max |xj| 1))) ∧
    (dir = .left → J[j]? = some (rows.map fun r => 2 * r.1 * xj + r.2.1 - r.1 * (h * max |xj| 1))) :=
  columns_quad (dir := fun _ => dir) hJ hh hx hf

/-- **C60** The same for the variant with directions by the kind of the variable: to the right for intermediates, to the
left for the others. -/
theorem C60_classified_quadratic (inter : Nat) (f : List K → Py (List K)) (x : List K) (h : K) (J : List (List K)) (j : Nat) (xj : K)
    (rows : List (K × K × K)) (hJ : classifiedJacobian inter f x h = .ok J) (hh : 0 < h) (hx : x[j]? = some xj)
    (hf : ∀ t, f (x.set j t) = .ok (rows.map fun r => r.1 * t ^ 2 + r.2.1 * t + r.2.2)) :
    (j < inter → J[j]? = some (rows.map fun r => 2 * r.1 * xj + r.2.1 + r.1 * (h * max |xj| 1))) ∧
    (inter ≤ j → J[j]? = some (rows.map fun r => 2 * r.1 * xj + r.2.1 - r.1 * (h * max |xj| 1))) := by
  have := columns_quad (dir := fun j => if j + 1 ≤ inter then .right else .left) hJ hh hx hf
  refine ⟨fun hlt => this.1 (if_pos hlt), fun hle => this.2 (if_neg (by omega))⟩

end

/-- `f(a, b) = (a² b, 3 a² + b²)` at `(4, 1/2)`: the columns are `(4 + step/2, 24 + 3 step)` with the step `4 h` and
`(16, 1 + h)`. -/
def exQuad (x : List ℚ) : Py (List ℚ) :=
  match x with
  | [a, b] => .ok [a ^ 2 * b, 3 * a ^ 2 + b ^ 2]
  | _ => .error .ValueError
example : numericalJacobian exQuad [4, 1 / 2] (1 / 100) .right = .ok [[4 + 1 / 50, 24 + 12 / 100], [16, 1 + 1 / 100]] ∧
    ∀ t, exQuad ([4, 1 / 2].set 0 t) = .ok ([((1 / 2 : ℚ), (0 : ℚ), (0 : ℚ)), (3, 0, 1 / 4)].map fun r => r.1 * t ^ 2 + r.2.1 * t + r.2.2) := by
  refine ⟨by decide +kernel, fun t => ?_⟩
  show Except.ok [t ^ 2 * (1 / 2), 3 * t ^ 2 + (1 / 2) ^ 2] = _
  simp only [List.map_cons, List.map_nil]
  congr 2
  · ring
  · congr 1; ring
example : classifiedJacobian 1 exQuad [4, 1 / 2] (1 / 100) = .ok [[4 + 1 / 50, 24 + 12 / 100], [16, 1 - 1 / 100]] := by decide +kernel

/-! ## Loading -/

section
variable (attrs : Dict Str AttrKind) (cls : Str)

theorem loadLoop_cons (inst : Dict Str PyVal) (k : Str) (v : PyVal) (l : List (Str × PyVal)) :
    loadLoop attrs cls inst ((k, v) :: l) = match get? attrs k with
      | none => loadLoop attrs cls inst l
      | some kind => if k ∈ laterKeys then loadLoop attrs cls inst l else setAttr cls k inst v kind >>= fun i => loadLoop attrs cls i l := rfl

theorem loadLoop_app (inst : Dict Str PyVal) (pre post : List (Str × PyVal)) :
    loadLoop attrs cls inst (pre ++ post) = loadLoop attrs cls inst pre >>= fun i => loadLoop attrs cls i post := by
  induction pre generalizing inst with
  | nil => rfl
  | cons e l ih =>
    obtain ⟨k, v⟩ := e
    rw [List.cons_append, loadLoop_cons, loadLoop_cons]
    cases get? attrs k with
    | none => exact ih inst
    | some kind =>
      dsimp only
      by_cases hk : k ∈ laterKeys
      · rw [if_pos hk, if_pos hk]; exact ih inst
      · rw [if_neg hk, if_neg hk]
        cases h : setAttr cls k inst v kind with
        | error e => rfl
        | ok i => exact ih i

/-- **C63** The first entry that cannot be assigned determines the error: an entry named like a read-only property
raises an AttributeError, and a component that is not one of the names offered, or not a text, raises a ValueError,
whatever comes after. -/
theorem C63_failing (a : LoadAttrs) (inst i : Dict Str PyVal) (pre post : List (Str × PyVal)) (k : Str) (v : PyVal)
    (hpre : loadLoop attrs cls inst pre = .ok i) (hk : k ≠ str! "parser" ∧ k ≠ str! "solver") :
    (get? attrs k = some .readonly → load attrs cls a inst (pre ++ (k, v) :: post) = .error .AttributeError) ∧
    (∀ name cands, get? attrs k = some (.component name cands) → (∀ s ∈ cands, v ≠ .str s) →
      load attrs cls a inst (pre ++ (k, v) :: post) = .error .ValueError) := by
  have hl : k ∉ laterKeys := by
    intro h
    simp only [laterKeys, List.mem_cons, List.not_mem_nil, or_false] at h
    rcases h with h | h
    · exact hk.1 h
    · exact hk.2 h
  have key : ∀ kind e, get? attrs k = some kind → setAttr cls k i v kind = .error e →
      load attrs cls a inst (pre ++ (k, v) :: post) = .error e := by
    intro kind e hg hs
    unfold load
    rw [loadLoop_app, hpre]
    show (loadLoop attrs cls i ((k, v) :: post) >>= _) = _
    rw [loadLoop_cons, hg]
    dsimp only
    rw [if_neg hl, hs]
    rfl
  refine ⟨fun hg => key _ _ hg rfl, fun name cands hg hv => key _ _ hg ?_⟩
  show componentSet cls name cands i v = _
  unfold componentSet
  split
  · rename_i s
    rw [if_neg fun hs => hv s hs rfl]
  · rfl

/-- **C63** After the entries, the parser and the solver: a parser that is not offered is a ValueError; without
definitions of species the constructor of a parser that is offered raises an AttributeError; a solver that is not
offered is a ValueError; the solver for steady states raises an AttributeError without reactions, and with numbers other
than those of mpmath. -/
theorem C63_failing_parts (a : LoadAttrs) (inst i : Dict Str PyVal) (setup : Dict Str PyVal) (v : PyVal)
    (hi : loadLoop attrs cls inst setup = .ok i) (hv : get? setup (str! "parser") = some v) :
    ((∀ s ∈ a.parsers, v ≠ .str s) → load attrs cls a inst setup = .error .ValueError) ∧
    ((∃ s ∈ a.parsers, v = .str s) → get? i (privateName cls (str! "species_definitions")) = none →
      load attrs cls a inst setup = .error .AttributeError) := by
  have key : ∀ e, setParser cls a.parsers i setup = .error e → load attrs cls a inst setup = .error e := by
    intro e he
    unfold load
    rw [hi]
    show (setParser cls a.parsers i setup >>= _) = _
    rw [he]
    rfl
  constructor
  · intro h
    apply key
    unfold setParser
    rw [hv]
    have : componentSet cls (str! "parser") a.parsers i v = .error .ValueError := by
      unfold componentSet
      split
      · rename_i s
        rw [if_neg fun hs => h s hs rfl]
      · rfl
    dsimp only
    rw [this]
    rfl
  · rintro ⟨s, hs, rfl⟩ hn
    apply key
    unfold setParser
    rw [hv]
    dsimp only
    rw [show componentSet cls (str! "parser") a.parsers i (.str s) = .ok _ from if_pos hs]
    show (match get? i (privateName cls (str! "species_definitions")) with | none => Except.error PyErr.AttributeError | some _ => Except.ok _) = _
    rw [hn]

/-- **C63** The solver: one that is not offered is a ValueError; the solver for steady states raises an AttributeError
without reactions, and with numbers other than those of mpmath, be they an offered choice or not. -/
theorem C63_failing_solver (a : LoadAttrs) (m : Loaded) :
    (∀ v, (∀ s ∈ a.solvers, v ≠ .str s) → setSolver cls a m (some v) = .error .ValueError) ∧
    (str! "SteadyStateSolver" ∈ a.solvers → m.net = none → setSolver cls a m (some (.str (str! "SteadyStateSolver"))) = .error .AttributeError) ∧
    (str! "SteadyStateSolver" ∈ a.solvers → (descrGet cls a.numRep m.inst).1 ≠ .str (str! "mpmath") →
      setSolver cls a m (some (.str (str! "SteadyStateSolver"))) = .error .AttributeError) := by
  refine ⟨fun v hv => ?_, fun hs hn => ?_, fun hs hr => ?_⟩
  · unfold setSolver
    split
    · rename_i h; cases h
    · rename_i s h
      cases h
      rw [if_neg fun hs => hv s hs rfl]
    · rfl
  · unfold setSolver buildSolver
    dsimp only
    rw [if_pos hs, if_pos rfl, hn]
    rfl
  · unfold setSolver buildSolver
    dsimp only
    rw [if_pos hs, if_pos rfl]
    have : (descrGet cls a.numRep m.inst).1.isMpmath = false := by
      unfold PyVal.isMpmath
      split
      · rename_i s h
        rw [h] at hr
        exact decide_eq_false fun e => hr (by rw [e])
      · rfl
    cases m.net with
    | none => rfl
    | some n =>
      dsimp only
      rw [this]
      rfl

end

/-- A setup with a read-only name and one with a corrector that does not exist; the entries before are fine. -/
example : loadLoop microAttrs microName (microInit 20 10 20 []) [(str! "temperature", .float 500)] =
      .ok (microInit 20 10 20 [] ++ [(privateName microName (str! "temperature"), .float 500)]) ∧
    get? microAttrs (str! "TOFs") = some .readonly ∧
    (∃ cands, get? microAttrs (str! "corrector") = some (.component (str! "corrector") cands) ∧ str! "Shomate" ∉ cands) := by
  refine ⟨rfl, rfl, _, rfl, by decide⟩
example : load microAttrs microName microLoad (microInit 20 10 20 [])
    [(str! "temperature", .float 500), (str! "parser", .str (str! "RelativeEnergyParser"))] = .error .AttributeError := rfl

/-- **C63** The values of the settings that are not given. -/
theorem C63_defaults (inst : Dict Str PyVal) (key : Str) (v : PyVal)
    (h : (key, v) ∈ ([(str! "temperature", .float 298), (str! "rate_algo", .str (str! "TST")), (str! "unitcell_area", .float 0),
      (str! "decimal_precision", .int 100), (str! "perturbation_size", .float (1 / 100)), (str! "perturbation_direction", .str (str! "right")),
      (str! "numerical_representation", .str (str! "mpmath")), (str! "rootfinding", .str (str! "MDNewton")),
      (str! "tolerance", .float (1 / 10 ^ 8)), (str! "max_rootfinding_iterations", .int 100), (str! "ode_buffer_size", .int 500),
      (str! "ode_output_interval", .int 200), (str! "components", .list [.str (str! "parser")]), (str! "rxn_expressions", .list []),
      (str! "ref_energies", .dict []), (str! "analysis", .list []), (str! "active_ratio", .float 1), (str! "species_definitions", .dict []),
      (str! "setup_dict", .dict []), (str! "setup_file", .str []), (str! "logger_level", .int 20), (str! "file_handler_level", .int 10),
      (str! "console_handler_level", .int 20)] : List (Str × PyVal)))
    (hn : get? inst (privateName microName key) = none) :
    ∃ d, get? microAttrs key = some (.descr d) ∧ (descrGet microName d inst).1 = v ∧
      get? (descrGet microName d inst).2 (privateName microName key) = some v := by
  have tbl : ∃ d, get? microAttrs key = some (.descr d) ∧ d.name = key ∧ d.default = v := by
    simp only [List.mem_cons, List.not_mem_nil, or_false, Prod.mk.injEq] at h
    rcases h with ⟨rfl, rfl⟩ | ⟨rfl, rfl⟩ | ⟨rfl, rfl⟩ | ⟨rfl, rfl⟩ | ⟨rfl, rfl⟩ | ⟨rfl, rfl⟩ | ⟨rfl, rfl⟩ | ⟨rfl, rfl⟩ |
      ⟨rfl, rfl⟩ | ⟨rfl, rfl⟩ | ⟨rfl, rfl⟩ | ⟨rfl, rfl⟩ | ⟨rfl, rfl⟩ | ⟨rfl, rfl⟩ | ⟨rfl, rfl⟩ | ⟨rfl, rfl⟩ | ⟨rfl, rfl⟩ |
      ⟨rfl, rfl⟩ | ⟨rfl, rfl⟩ | ⟨rfl, rfl⟩ | ⟨rfl, rfl⟩ | ⟨rfl, rfl⟩ | ⟨rfl, rfl⟩ <;>
    exact ⟨_, rfl, rfl, rfl⟩
  obtain ⟨d, hd, hname, hdef⟩ := tbl
  refine ⟨d, hd, ?_⟩
  unfold descrGet
  rw [hname, hn, hdef]
  refine ⟨rfl, ?_⟩
  dsimp only
  rw [get?_set, if_pos rfl]

/-- Nothing is given: the tolerance is the default. -/
example : get? (microInit 20 10 20 []) (privateName microName (str! "tolerance")) = none := rfl

/-! ## Groups of coordinates -/

/-- **C44** What `append` refuses, and what it has done before: a coordinate that is not a list of three floats is a
ValueError and nothing is changed; an element that is not a text is a ValueError too, but the coordinate has been
appended. -/
theorem C44_failing {K : Type} (s : CStore K) (g : Group) (coord : CoordArg K) (elem : ElemArg) :
    ((∀ x y z : K, coord ≠ some [some x, some y, some z]) → appendG s g coord elem = (s, .error .ValueError)) ∧
    (∀ x y z : K, coord = some [some x, some y, some z] →
      appendG s g coord .other = (⟨s.cs.modify g.c (· ++ [[x, y, z]]), s.es⟩, .error .ValueError)) := by
  constructor
  · intro h
    have hc : checkCoord coord = .error .ValueError := by
      unfold checkCoord
      split
      · rfl
      · rename_i l
        by_cases hl : l.length = 3
        · rw [if_neg (by simpa using hl)]
          match l, hl with
          | [a, b, c], _ =>
            cases a with
            | none => rfl
            | some x =>
              cases b with
              | none => rfl
              | some y =>
                cases c with
                | none => rfl
                | some z => exact absurd rfl (h x y z)
        · rw [if_pos (by simpa using hl)]
    unfold appendG
    rw [hc]
  · rintro x y z rfl
    rfl

/-- **C44** A group of coordinates and elements of different numbers is not made. -/
theorem C44_unequal {K : Type} (s : CStore K) (cs : List (List K)) (es : List Str) (h : cs.length ≠ es.length) :
    (newGroup s (some cs) (some es)).2 = .error .ValueError := by
  unfold newGroup
  dsimp only [Option.getD_some]
  rw [if_pos h]

example : (∀ x y z : ℚ, (some [some 0, none, some 1] : CoordArg ℚ) ≠ some [some x, some y, some z]) ∧
    ([[0, 0, 0]] : List (List ℚ)).length ≠ ([] : List Str).length := by
  refine ⟨fun x y z h => ?_, by decide⟩
  simp at h

/-! ## Pressures -/

/-- **C49** Where a definition of a species may be something else than a dictionary: in a list or a tuple the word
`pressure` must be an entry, in a text it must occur somewhere; numbers, truth values and `None` are a TypeError. -/
theorem C49_pressure (v : PyVal) :
    (∀ l, v = .list l ∨ v = .tuple l → ∃ b, hasPressure v = .ok b ∧ (b = true ↔ .str (str! "pressure") ∈ l)) ∧
    (∀ s, v = .str s → ∃ b, hasPressure v = .ok b ∧ (b = true ↔ ∃ p q, s = p ++ str! "pressure" ++ q)) ∧
    (∀ d, v = .dict d → ∃ b, hasPressure v = .ok b ∧ (b = true ↔ ∃ w, (.str (str! "pressure"), w) ∈ d)) ∧
    ((∀ l, v ≠ .list l) → (∀ l, v ≠ .tuple l) → (∀ s, v ≠ .str s) → (∀ d, v ≠ .dict d) → hasPressure v = .error .TypeError) := by
  have any : ∀ l : List PyVal, (l.any fun p => match p with | .str s => decide (s = str! "pressure") | _ => false) = true ↔
      .str (str! "pressure") ∈ l := by
    intro l
    rw [List.any_eq_true]
    constructor
    · rintro ⟨x, hx, h⟩
      cases x <;> simp at h
      subst h
      exact hx
    · intro h
      exact ⟨_, h, by simp⟩
  refine ⟨?_, ?_, ?_, ?_⟩
  · rintro l (rfl | rfl)
    · exact ⟨_, rfl, any l⟩
    · exact ⟨_, rfl, any l⟩
  · rintro s rfl
    refine ⟨_, rfl, ?_⟩
    constructor
    · intro hd
      obtain ⟨p, q, h⟩ := @of_decide_eq_true _ (_) hd
      exact ⟨p, q, h.symm⟩
    · rintro ⟨p, q, h⟩
      exact @decide_eq_true _ (_) ⟨p, q, h.symm⟩
  · rintro d rfl
    refine ⟨_, rfl, ?_⟩
    rw [List.any_eq_true]
    constructor
    · rintro ⟨⟨x, w⟩, hx, h⟩
      cases x <;> simp at h
      subst h
      exact ⟨w, hx⟩
    · rintro ⟨w, h⟩
      exact ⟨_, h, by simp⟩
  · intro h1 h2 h3 h4
    cases v with
    | list l => exact absurd rfl (h1 l)
    | tuple l => exact absurd rfl (h2 l)
    | str s => exact absurd rfl (h3 s)
    | dict d => exact absurd rfl (h4 d)
    | _ => rfl

example : hasPressure (.str (str! "the pressure is 1")) = .ok true ∧ hasPressure (.tuple [.str (str! "pressures")]) = .ok false ∧
    hasPressure .none = .error .TypeError := by decide +kernel

/-! ## Pictures -/

theorem checkImages_error {ims : List RawImg} {e : PyErr} (h : checkImages ims = .error e) : e = .ValueError := by
  unfold checkImages at h
  induction ims with
  | nil => cases h
  | cons r l ih =>
    rw [List.mapM_cons] at h
    cases hr : checkImage r with
    | error e' =>
      rw [hr] at h
      cases h
      exact C92_images.2.2.2.2 r _ hr
    | ok g =>
      rw [hr] at h
      cases hl : l.mapM checkImage with
      | error e' =>
        have : (List.mapM checkImage l >>= fun bs => pure (g :: bs)) = (.error e : Py (List GifImg)) := h
        rw [hl] at this
        cases this
        exact ih hl
      | ok m =>
        have : (List.mapM checkImage l >>= fun bs => pure (g :: bs)) = (.error e : Py (List GifImg)) := h
        rw [hl] at this
        cases this

/-- **C92** What is refused before the file is opened: any picture that is refused is a ValueError of the whole, and so
is a list of durations that has not one entry per picture. The file is not touched. -/
theorem C92_failing (pil : Bool → Img → PilImg) (ims : List RawImg) (a : GifArgs) :
    ((∃ r ∈ ims, ¬ (checkImage r).isOk) → writeGif pil ims a = (none, .error .ValueError)) ∧
    (∀ l, a.duration = .each l → l.length ≠ ims.length → writeGif pil ims a = (none, .error .ValueError)) := by
  constructor
  · rintro ⟨r, hr, hb⟩
    have : checkImages ims = .error .ValueError := by
      cases h : checkImages ims with
      | error e => rw [checkImages_error h]
      | ok l =>
        obtain ⟨b, -, hb'⟩ := (mapM_ok_mem h).2 r hr
        rw [hb'] at hb
        exact absurd rfl hb
    unfold writeGif prepareGif
    rw [this]
    rfl
  · intro l hl hn
    unfold writeGif prepareGif
    cases h : checkImages ims with
    | error e => rw [checkImages_error h]; rfl
    | ok gs =>
      have hlen := (mapM_ok_inv h).1
      simp only [bind, Except.bind, hl, PerFrame.list]
      rw [if_neg (by rw [hlen]; exact hn)]

/-- **C92** Arrays of integers are accepted like arrays of bytes, and each number is taken modulo 256, also negative ones. -/
theorem C92_ints (s : List Nat) (px : Nat → Nat → List Int) :
    ((checkImage (.int s px)).isOk ↔ s.length = 2 ∨ s.length = 3 ∧ (s[2]? = some 3 ∨ s[2]? = some 4)) ∧
    ∀ g, checkImage (.int s px) = .ok g → g.arr = true ∧ s[0]? = some g.im.h ∧ s[1]? = some g.im.w ∧
      ∀ i j, (g.im.px i j).map (fun b => (b.toNat : Int)) = (px i j).map (· % 256) := by
  have e : checkImage (.int s px) = checkImage (.u8 s fun i j => (px i j).map fun n => UInt8.ofNat (n % 256).toNat) := rfl
  rw [e]
  refine ⟨C92_images.2.1 s _, fun g hg => ?_⟩
  obtain ⟨ha, hp, hh, hw, -⟩ := C92_images.2.2.1 s _ g hg
  refine ⟨ha, hh, hw, fun i j => ?_⟩
  rw [hp, List.map_map]
  apply List.map_congr_left
  intro n _
  have h0 : 0 ≤ n % 256 := Int.emod_nonneg _ (by decide)
  have h1 : n % 256 < 256 := Int.emod_lt_of_pos _ (by decide)
  show ((UInt8.ofNat (n % 256).toNat).toNat : Int) = n % 256
  rw [UInt8.toNat_ofNat']
  omega

example : (checkImage (.int [2, 3] fun i j => [(i : Int) - 300 * j])).isOk = true ∧
    writeGif toyPil [rawOf toyA, .other] toyArgs = (none, .error .ValueError) := ⟨rfl, rfl⟩

/-! ## Symbols -/

section
variable {K : Type} [Field K] [DecidableEq K]

/-- **C71** Calculations with symbols that are not there: the rate of a reaction that the model does not have is a
ValueError. Before the symbols are made, rates, equilibrium constants and rate constants are an AttributeError, and so
is everything that inserts pressures before the data have been read. A gas, a liquid or a site that is not in the
network is a ParameterError. -/
theorem C71_failing (ex : K → K) (s : SymSolver K) (rxn : Str) :
    (rxn ∉ s.o.rxns → rateSym s rxn = .error .ValueError) ∧
    (s.free = none → rxn ∈ s.o.rxns → rateSym s rxn = .error .AttributeError) ∧
    (s.free = none → equilibriumSyms s = .error .AttributeError ∧ rateConstantsBySym ex s = .error .AttributeError) ∧
    (s.free.isSome → equilibriumSyms s = .ok ((List.range s.o.rxns.length).map fun i => .div (kfSym i) (krSym i))) ∧
    (s.data = none → dataSubs s = .error .AttributeError) ∧
    ∀ free f, (f.type = .gas ∧ f.speciesSite ∉ s.o.net.gas ∨ f.type = .liquid ∧ f.speciesSite ∉ s.o.net.liq ∨
      f.type = .site ∧ f.speciesSite ∉ s.o.net.sites) → extractOf (K := K) s.o.net free f = .error .ParameterError := by
  refine ⟨fun h => if_pos h, fun h hr => ?_, fun h => ⟨?_, ?_⟩, fun h => ?_, fun h => ?_, fun free f h => ?_⟩
  · unfold rateSym
    rw [if_neg (not_not.mpr hr), h]
  · unfold equilibriumSyms
    rw [h]; rfl
  · unfold rateConstantsBySym
    rw [h]; rfl
  · unfold equilibriumSyms
    rw [if_neg (by simp [Option.isSome_iff_ne_none.mp h])]
  · unfold dataSubs
    rw [h]
  · unfold extractOf
    rcases h with ⟨ht, hn⟩ | ⟨ht, hn⟩ | ⟨ht, hn⟩ <;> rw [ht] <;> exact if_neg hn

end

/-! ## Rates -/

/-- **C20** The rate constants of a reaction that the model does not have are a ValueError, in both theories and
with and without pressures. -/
theorem C20_unknown (o : RateOwner) (rel : RelDict ℝ) (p : Bool) (rxn : Str) (h : rxn ∉ o.rxns) :
    ratesTST o rel p rxn = .error .ValueError ∧ ratesCT o rel p rxn = .error .ValueError := by
  have : relOf o.rxns rel rxn = .error .ValueError := if_pos h
  unfold ratesTST ratesCT
  rw [this]
  exact ⟨rfl, rfl⟩

/-- **C25** With fewer rate constants than reactions the rate of a reaction beyond them is an IndexError; the change of
an adsorbate that the model does not have is a ValueError. -/
theorem C25_failing {K : Type} [Field K] [DecidableEq K] (o : MFOwner K) (env : Env K) (t : Term) (a rxn : Str) :
    ((t.fwd = true → env.kf.length ≤ t.idx) → (t.fwd = false → env.kr.length ≤ t.idx) → evalTerm env t = .error .IndexError ∧
      evalPiece env (.k t.fwd t.idx) = .error .IndexError) ∧
    (a ∉ o.net.ads → elementaryDtheta o a rxn = .error .ValueError) := by
  refine ⟨fun h1 h2 => ?_, fun h => if_pos h⟩
  have : (if t.fwd then env.kf else env.kr)[t.idx]? = none := by
    rw [List.getElem?_eq_none_iff]
    cases hf : t.fwd with
    | true => exact h1 hf
    | false => exact h2 hf
  unfold evalTerm evalPiece
  dsimp only
  rw [this]
  exact ⟨rfl, rfl⟩

/-! ## Runs -/

/-- **C31** The kept guess is an AttributeError before the first search that succeeds, and only then. -/
theorem C31_no_guess {K : Type} (kept : Option (List K)) :
    (goodGuess kept = .error .AttributeError ↔ kept = none) ∧ ∀ e, goodGuess kept = .error e → e = .AttributeError := by
  cases kept with
  | none => exact ⟨⟨fun _ => rfl, fun _ => rfl⟩, fun e h => by cases h; rfl⟩
  | some g => exact ⟨⟨(nomatch ·), (nomatch ·)⟩, fun e h => nomatch h⟩

/-- **C41** The list of plugins of a model can be assigned once: afterwards it is an AttributeError. -/
theorem C41_once {P : Type} (h h' : AnalysisHeap P) (m : Nat) (l l' : List P) (ha : h.assign m l = .ok h') :
    h'.assign m l' = .error .AttributeError ∧ ∀ m' l'', m' ≠ m → ((h'.assign m' l'').isOk ↔ (h.assign m' l'').isOk) := by
  unfold AnalysisHeap.assign at ha
  split at ha
  · cases ha
  · cases ha
    refine ⟨?_, fun m' l'' hm => ?_⟩
    · unfold AnalysisHeap.assign
      dsimp only
      rw [if_pos rfl]
    · unfold AnalysisHeap.assign
      dsimp only
      rw [if_neg hm]
      cases h.stored m' <;> exact Iff.rfl

/-- **C12** Reading absolute energies: without the entry in the file it is a KeyError and nothing changes; with it the
absolute energies are those of the file even if the relative ones can not be derived, which then stay as they were. -/
theorem C12_reading {K : Type} [Field K] [LinearOrder K] (rxns : List Str) (o : EnergyState K) :
    parseAbsolute rxns none o = (o, .error .KeyError) ∧
    ∀ E, (parseAbsolute rxns (some E) o).1.absolute = some E ∧
      (¬ (parseAbsolute rxns (some E) o).2.isOk → (parseAbsolute rxns (some E) o).1.relative = o.relative) := by
  refine ⟨rfl, fun E => ?_⟩
  unfold parseAbsolute
  dsimp only
  cases relativeFromAbsolute (some E) rxns with
  | error e => exact ⟨rfl, fun _ => rfl⟩
  | ok r => exact ⟨rfl, fun h => absurd rfl h⟩

theorem tofRecord_counts {α : Type} {n : Nat} (hn : 1 ≤ n) (records : List (α × List α)) (s : TofFile α) (hb : s.buffer.length < n)
    (hf : s.file.length = 3 + 4 * s.counter) :
    let s' := records.foldl (TofFile.record n) s
    s'.buffer.length < n ∧ s'.file.length = 3 + 4 * s'.counter ∧
      n * s'.counter + s'.buffer.length = n * s.counter + s.buffer.length + records.length := by
  induction records generalizing s with
  | nil => exact ⟨hb, hf, rfl⟩
  | cons r l ih =>
    rw [List.foldl_cons]
    by_cases h : n ≤ s.buffer.length + 1
    · have e : s.record n r = ⟨s.file ++ tofChunk s.counter (s.buffer ++ [r]), [], s.counter + 1⟩ := by
        unfold TofFile.record TofFile.flush
        dsimp only
        rw [if_pos (by simpa using h)]
      rw [e]
      obtain ⟨h1, h2, h3⟩ := ih ⟨s.file ++ tofChunk s.counter (s.buffer ++ [r]), [], s.counter + 1⟩ (by show 0 < n; omega)
        (by rw [List.length_append, hf]; show 3 + 4 * s.counter + 4 = _; ring)
      refine ⟨h1, h2, ?_⟩
      dsimp only at h3
      rw [h3, List.length_cons, List.length_nil]
      have : n = s.buffer.length + 1 := by omega
      have e2 : n * (s.counter + 1) = n * s.counter + n := by ring
      omega
    · have e : s.record n r = ⟨s.file, s.buffer ++ [r], s.counter⟩ := by
        unfold TofFile.record
        dsimp only
        rw [if_neg (by simpa using h)]
      rw [e]
      obtain ⟨h1, h2, h3⟩ := ih ⟨s.file, s.buffer ++ [r], s.counter⟩ (by simp; omega) hf
      refine ⟨h1, h2, ?_⟩
      dsimp only at h3
      rw [h3, List.length_append, List.length_cons, List.length_cons, List.length_nil]
      omega

/-- **C57** How often the file of turnover frequencies is written: once for every full buffer and once for the rest, if
there is one. Each time adds four statements to the three of the header, so a run that recorded nothing leaves the header only. -/
theorem C57_flushes {α : Type} (mapping : List Str) {n : Nat} (hn : 1 ≤ n) (records : List (α × List α)) :
    (tofFile mapping n records).length = 3 + 4 * (records.length / n + if records.length % n = 0 then 0 else 1) := by
  obtain ⟨h1, h2, h3⟩ := tofRecord_counts hn records ⟨tofHeader mapping, [], 0⟩ (by show 0 < n; omega) rfl
  unfold tofFile
  obtain ⟨s', hs⟩ : ∃ s', records.foldl (TofFile.record n) ⟨tofHeader mapping, [], 0⟩ = s' := ⟨_, rfl⟩
  rw [hs] at h1 h2 h3 ⊢
  simp only [List.length_nil, Nat.mul_zero, Nat.zero_add] at h3
  have hd : records.length / n = s'.counter := by
    rw [← h3, Nat.mul_add_div (by omega), Nat.div_eq_of_lt h1, Nat.add_zero]
  have hm : records.length % n = s'.buffer.length := by
    rw [← h3, Nat.mul_add_mod, Nat.mod_eq_of_lt h1]
  rw [hd, hm]
  unfold TofFile.finalize
  by_cases hb : s'.buffer.length = 0
  · rw [if_neg (by omega), if_pos hb, h2]; rfl
  · rw [if_pos (by omega), if_neg hb]
    show (s'.file ++ tofChunk s'.counter s'.buffer).length = _
    rw [List.length_append, h2]
    show 3 + 4 * s'.counter + 4 = _
    ring

/-- Five records with a buffer of two: three times. -/
example : (tofFile (α := ℚ) [str! "a"] 2 [(1, [1]), (2, [1]), (3, [0]), (4, [2]), (5, [1])]).length = 3 + 4 * 3 := by decide +kernel

/-- **C81** A lattice model that has read nothing can not run: an AttributeError, and nothing is handed over. -/
theorem C81_unread {K C : Type} [Field K] (s : KmcSettings) (ma sc : Bool) (t : Str) (e : Py Unit) (st : KmcState K C)
    (hd : st.dicts = none) (hc : st.cache = none) :
    st.run s ma sc t e = (.error .AttributeError, st) := by
  unfold KmcState.run KmcState.processes KmcState.getProcesses
  rw [hc, hd]

/-- Instances of the hypotheses above: a fresh lattice model; a model with a list of plugins already; a symbol solver of
a network without the reaction asked for; a rate constant that is missing. -/
example : (KmcState.init : KmcState ℚ Nat).dicts = none ∧ (KmcState.init : KmcState ℚ Nat).cache = none := ⟨rfl, rfl⟩
example : ∃ h', (⟨[], fun _ => none⟩ : AnalysisHeap Nat).assign 0 [7] = .ok h' := ⟨_, rfl⟩
example : evalTerm (K := ℚ) ⟨[1], [1], [], [], []⟩ ⟨1, true, 1, []⟩ = .error .IndexError := rfl
example : str! "CO_g + *_s -> CO_s" ∉ [str! "O2_g + 2*_s -> 2O_s"] := by decide

/-! ### The theorems at these cases -/

example (T : ℝ) (rel : RelDict ℝ) (p : Bool) := C20_unknown ⟨[str! "O2_g + 2*_s -> 2O_s"], T, [], 0, 0, false⟩ rel p (str! "CO_g + *_s -> CO_s") (by show str! "CO_g + *_s -> CO_s" ∉ [str! "O2_g + 2*_s -> 2O_s"]; decide)

example := C44_unequal (K := ℚ) ⟨[], []⟩ [[0, 0, 0]] [] (by decide)

example := C63_failing_parts microAttrs microName microLoad (microInit 20 10 20 []) _
  [(str! "temperature", .float 500), (str! "parser", .str (str! "RelativeEnergyParser"))] (.str (str! "RelativeEnergyParser")) rfl rfl

example (v : PyVal) := C63_failing microAttrs microName microLoad (microInit 20 10 20 []) _ [(str! "temperature", .float 500)] [] (str! "TOFs") v rfl (by decide)

example := C60_quadratic exQuad [4, 1 / 2] (1 / 100) .right [[4 + 1 / 50, 24 + 12 / 100], [16, 1 + 1 / 100]] 0 4 [((1 / 2 : ℚ), (0 : ℚ), (0 : ℚ)), (3, 0, 1 / 4)]
  (by decide +kernel) (by norm_num) rfl (fun t => by
    show Except.ok [t ^ 2 * (1 / 2), 3 * t ^ 2 + (1 / 2) ^ 2] = _
    simp only [List.map_cons, List.map_nil]
    congr 2
    · ring
    · congr 1; ring)

example (h' : AnalysisHeap Nat) (h : (⟨[], fun _ => none⟩ : AnalysisHeap Nat).assign 0 [7] = .ok h') := C41_once _ h' 0 [7] [8] h

end Verif
