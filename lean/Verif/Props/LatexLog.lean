import Verif.Model.LatexLog
import Verif.Lemmas.Chars
import Verif.Lemmas.Py
import Verif.Props.Symbolic
/-
C118: equations written to `formulas.tex`.
-/
namespace Verif

/-! ### Specification -/

/-- Numbered lines, from a number on: what stands before and after the number, an equality sign, a text, and the end of a LaTeX line. -/
def numberedLines (before after : Str) : Nat → List Str → Str
  | _, [] => []
  | n, t :: ts => before ++ Nat.toDigits 10 n ++ after ++ str! " = " ++ t ++ str! "\\\\\n" ++ numberedLines before after (n + 1) ts

/-- What a file holds; an absent file holds nothing. -/
def TexFile.holds (file : TexFile) (t : Str) : Prop := file = some t ∨ file = none ∧ t = []

/-- The braces still open after a text, given those open before it; nothing if one is closed that is not open. -/
def braces : Nat → Str → Option Nat
  | n, [] => some n
  | n, c :: s => if c = '{' then braces (n + 1) s else if c = '}' then match n with
    | 0 => none
    | m + 1 => braces m s
    else braces n s

/-- A text that closes all its braces and no others. -/
def Balanced (s : Str) : Prop := braces 0 s = some 0

/-- The two blocks for the rates of reactions with given texts. -/
def rateBlocks (fs rs : List Str) : Str :=
  numberedLines (str! "r_{f") (str! "^{+}}") 1 fs ++ str! "\n" ++ numberedLines (str! "r_{r") (str! "^{-}}") 1 rs ++ str! "\n"

/-! ### Lines -/

theorem latexStrs_from (a b : Str) (l : List Str) (n : Nat) :
    ((l.zipIdx n).map fun p => a ++ Nat.toDigits 10 (p.2 + 1) ++ b ++ str! " = " ++ p.1 ++ str! "\\\\" ++ str! "\n").flatten = numberedLines a b (n + 1) l := by
  induction l generalizing n with
  | nil => rfl
  | cons t l ih =>
    rw [List.zipIdx_cons, List.map_cons, List.flatten_cons, ih (n + 1)]
    rw [numberedLines]
    simp

theorem latexStrs_flatten (a b : Str) (l : List Str) : (latexStrs a b l).flatten = numberedLines a b 1 l := latexStrs_from a b l 0

variable {K : Type} [Field K]

theorem write_holds {file : TexFile} {t : Str} (h : file.holds t) (line : Str) : (write2file file line).holds (t ++ line) := by
  rcases h with rfl | ⟨rfl, rfl⟩ <;> exact .inl rfl

/-- **C118** Asked to write the rates, `get_rate_syms` returns what it returns otherwise and adds, after what the file holds, the forward rates of all reactions in order with numbers
from one, an empty line, the reverse rates in the same way, and an empty line. Missing: the coverage equations, refuted below. -/
theorem C118_rates_partial (tex : SymExpr K → Str) (s : SymSolver K) (file : TexFile) (fs rs : List (SymExpr K)) (h : (getRateSyms tex s false file).1 = .ok (fs, rs)) :
    (getRateSyms tex s true file).1 = .ok (fs, rs) ∧ fs.length = s.o.rxns.length ∧ rs.length = s.o.rxns.length ∧
    ∀ t, file.holds t → (getRateSyms tex s true file).2 = some (t ++ rateBlocks (fs.map tex) (rs.map tex)) := by
  unfold getRateSyms at h ⊢
  cases he : s.o.rxns.mapM (rateSym s) with
  | error e => rw [he] at h; cases h
  | ok es =>
    rw [he] at h
    dsimp only at h ⊢
    cases h
    obtain ⟨hl, -⟩ := mapM_ok_inv he
    refine ⟨rfl, by simp [hl], by simp [hl], fun t ht => ?_⟩
    rw [if_pos rfl]
    have := write_holds (write_holds ht ((latexStrs (str! "r_{f") (str! "^{+}}") (es.map fun e => tex e.1)).flatten ++ str! "\n"))
      ((latexStrs (str! "r_{r") (str! "^{-}}") (es.map fun e => tex e.2)).flatten ++ str! "\n")
    rcases this with e | ⟨-, e⟩
    · unfold logLatex
      rw [e, latexStrs_flatten, latexStrs_flatten]
      unfold rateBlocks
      simp [Function.comp_def]
    · simp at e

/-- **C118** Without being asked, and on every error, nothing is written; coverage equations without writing are those of the solver. -/
theorem C118_nothing (tex : SymExpr K → Str) (s : SymSolver K) (file : TexFile) (log : Bool) :
    (getRateSyms tex s false file).2 = file ∧ (getDthetaSyms s log file).2 = file ∧
    (∀ e, (getRateSyms tex s log file).1 = .error e → (getRateSyms tex s log file).2 = file) ∧
    (getDthetaSyms s false file).1 = s.o.net.ads.mapM (adsorbateDthetaSym s) := by
  unfold getRateSyms getDthetaSyms
  refine ⟨?_, ?_, ?_, ?_⟩
  · cases s.o.rxns.mapM (rateSym s) <;> rfl
  · cases s.o.net.ads.mapM (adsorbateDthetaSym s) <;> cases log <;> rfl
  · cases s.o.rxns.mapM (rateSym s) with
    | error e => intro _ _; rfl
    | ok es => intro e he; cases he
  · cases s.o.net.ads.mapM (adsorbateDthetaSym s) <;> rfl

/-- **C118** After any calls in any order the file holds what it held, then the blocks of the rates once for each call that was asked to write them and could. -/
theorem C118_history (tex : SymExpr K → Str) (s : SymSolver K) (calls : List TexCall) (file : TexFile) (t : Str) (ht : file.holds t) :
    (∀ fs rs, (getRateSyms tex s false none).1 = .ok (fs, rs) →
      (texRun tex s calls file).holds (t ++ (List.replicate (calls.count (.rates true)) (rateBlocks (fs.map tex) (rs.map tex))).flatten)) ∧
    (∀ e, (getRateSyms tex s false none).1 = .error e → texRun tex s calls file = file) := by
  have irrel : ∀ log f g, (getRateSyms tex s log f).1 = (getRateSyms tex s false g).1 := by
    intro log f g
    unfold getRateSyms
    cases s.o.rxns.mapM (rateSym s) <;> rfl
  constructor
  · intro fs rs h
    induction calls generalizing file t with
    | nil => simpa [texRun] using ht
    | cons c calls ih =>
      cases c with
      | dtheta log =>
        unfold texRun
        rw [(C118_nothing tex s file log).2.1]
        simpa using ih file t ht
      | rates log =>
        unfold texRun
        cases log with
        | false =>
          rw [(C118_nothing tex s file false).1]
          simpa using ih file t ht
        | true =>
          have h1 := (C118_rates_partial tex s file fs rs (by rw [irrel false file none, h])).2.2.2 t ht
          have := ih _ _ (.inl h1)
          simpa [List.replicate_succ, List.append_assoc] using this
  · intro e h
    induction calls with
    | nil => rfl
    | cons c calls ih =>
      cases c with
      | dtheta log =>
        unfold texRun
        rw [(C118_nothing tex s file log).2.1]
        exact ih
      | rates log =>
        unfold texRun
        rw [(C118_nothing tex s file log).2.2.1 e (by rw [irrel log file none, h])]
        exact ih

/-! ### Braces -/

theorem braces_append (n : Nat) (a b : Str) : braces n (a ++ b) = (braces n a).bind fun m => braces m b := by
  induction a generalizing n with
  | nil => rfl
  | cons c a ih =>
    simp only [List.cons_append, braces]
    split
    · exact ih _
    · split
      · cases n with
        | zero => rfl
        | succ m => exact ih _
      · exact ih _

theorem braces_lift (k n m : Nat) (s : Str) (h : braces n s = some m) : braces (n + k) s = some (m + k) := by
  induction s generalizing n with
  | nil => cases h; rfl
  | cons c s ih =>
    unfold braces at h ⊢
    split at h
    · rw [if_pos (by assumption), Nat.add_right_comm]; exact ih _ h
    · rw [if_neg (by assumption)]
      split at h
      · rw [if_pos (by assumption)]
        cases n with
        | zero => cases h
        | succ n => rw [Nat.add_right_comm]; exact ih _ h
      · rw [if_neg (by assumption)]; exact ih _ h

theorem braces_balanced {s : Str} (h : Balanced s) (n : Nat) : braces n s = some n := by
  simpa using braces_lift n 0 0 s h

theorem braces_plain {s : Str} (h : ∀ c ∈ s, isDigit c = true) (n : Nat) : braces n s = some n := by
  induction s with
  | nil => rfl
  | cons c s ih =>
    have hc := h c (by simp)
    unfold braces
    rw [if_neg (by rintro rfl; revert hc; decide), if_neg (by rintro rfl; revert hc; decide)]
    exact ih fun c hc => h c (by simp [hc])

theorem braces_lines (before after : Str) (hw : ∀ n, (braces n before).bind (fun m => braces m after) = some n) (k : Nat) (ts : List Str)
    (ht : ∀ t ∈ ts, Balanced t) (n : Nat) : braces n (numberedLines before after k ts) = some n := by
  induction ts generalizing k with
  | nil => rfl
  | cons t ts ih =>
    unfold numberedLines
    have h1 := hw n
    cases hb : braces n before with
    | none => rw [hb] at h1; cases h1
    | some m =>
      rw [hb] at h1
      simp only [Option.bind_some] at h1
      have e1 : braces n (str! " = ") = some n := by simp [braces]
      have e2 : braces n (str! "\\\\\n") = some n := by simp [braces]
      simp only [braces_append, hb, Option.bind_some, braces_plain (digits_toDigits k), h1, e1, e2, braces_balanced (ht t (by simp)), ih (k + 1) fun t h => ht t (by simp [h])]

/-- **C118** The text written for rates closes its braces if the texts of the rates do. -/
theorem C118_balanced (fs rs : List Str) (hf : ∀ t ∈ fs, Balanced t) (hr : ∀ t ∈ rs, Balanced t) : Balanced (rateBlocks fs rs) := by
  unfold Balanced rateBlocks
  have h1 : ∀ n, braces n (numberedLines (str! "r_{f") (str! "^{+}}") 1 fs) = some n := braces_lines _ _ (fun n => by simp [braces]) 1 fs hf
  have h2 : ∀ n, braces n (numberedLines (str! "r_{r") (str! "^{-}}") 1 rs) = some n := braces_lines _ _ (fun n => by simp [braces]) 1 rs hr
  simp only [braces_append, h1, h2, Option.bind_some]
  rfl

/-- **C118** (refuted) Asked to write the coverage equations, `get_dtheta_dt_syms` raises for every model and writes nothing; where the equations themselves can be made, the
error is `AttributeError`. -/
theorem C118_coverages_refuted (s : SymSolver K) (file : TexFile) :
    (getDthetaSyms s true file).2 = file ∧ (¬ ∃ es, (getDthetaSyms s true file).1 = .ok es) ∧
    ∀ es, (getDthetaSyms s false file).1 = .ok es → (getDthetaSyms s true file).1 = .error .AttributeError := by
  unfold getDthetaSyms
  cases s.o.net.ads.mapM (adsorbateDthetaSym s) with
  | error e => refine ⟨rfl, ?_, fun es h => by cases h⟩; rintro ⟨es, h⟩; cases h
  | ok es => refine ⟨rfl, ?_, fun _ _ => rfl⟩; rintro ⟨es, h⟩; cases h

/-- **C118** (refuted) The lines made for the coverage equations close one brace more than they open, whatever the equations. -/
theorem C118_coverage_lines_refuted (t : Str) (ts : List Str) : braces 0 (dthetaLines (t :: ts)).flatten = none := by
  unfold dthetaLines
  rw [latexStrs_flatten]
  unfold numberedLines
  have hd := braces_plain (digits_toDigits 1)
  simp only [braces_append]
  simp [braces, hd]

/-- The small network: the rates are written twice, and the coverage equations are not. -/
example : ∃ s fs rs, prepare exIsoSym = .ok s ∧ (getRateSyms (fun _ => str! "x") s false none).1 = .ok (fs, rs) ∧ fs.length = 2 ∧
    texRun (fun _ => str! "x") s [.rates true, .dtheta true, .rates false] none =
      some (str! "r_{f1^{+}} = x\\\\\nr_{f2^{+}} = x\\\\\n\nr_{r1^{-}} = x\\\\\nr_{r2^{-}} = x\\\\\n\n") ∧
    (∃ es, (getDthetaSyms s false none).1 = .ok es) ∧ (getDthetaSyms s true none).1 = .error .AttributeError := by
  obtain ⟨s, hs⟩ : ∃ s, prepare exIsoSym = .ok s := ⟨_, rfl⟩
  obtain rfl := Except.ok.inj hs
  exact ⟨_, _, _, rfl, rfl, rfl, by decide +kernel, ⟨_, rfl⟩, rfl⟩

/-! ### The theorems at these cases -/

example := C118_balanced [str! "k_{f1}p_{CO}"] [str! "k_{r1}"] (by unfold Balanced; decide) (by unfold Balanced; decide)

end Verif
