import Verif.Props.ChemObjects
import Verif.Props.Load
import Verif.Props.RunScripts
import Verif.Props.Format
import Verif.Props.Tables
import Verif.Props.Descriptors
import Mathlib.NumberTheory.LucasLehmer
import Mathlib.FieldTheory.Finite.Basic
/-
Further facts about arguments of the wrong kind, names of settings, hashes and barriers.
-/
namespace Verif
open Dict

/-! ## C113 -/

/-- **C113** A state compared with something that is not a state gets an exception object, which is returned and not raised. -/
theorem C113_state_argument (s : Str) (a : ChemArg) (v : Verdict) (h : stateConserveArg s a = .ok v) :
    v = .true ↔ ∃ t, a = .state t := by
  cases a with
  | state t =>
    unfold stateConserveArg at h
    obtain ⟨x, -, h⟩ := bind_ok.mp h
    rw [pure_ok] at h
    exact ⟨fun _ => ⟨t, rfl⟩, fun _ => h.symm⟩
  | formula g =>
    cases h
    exact ⟨(fun h => nomatch h), (fun ⟨_, h⟩ => nomatch h)⟩
  | other =>
    cases h
    exact ⟨(fun h => nomatch h), (fun ⟨_, h⟩ => nomatch h)⟩

example : stateConserveArg (str! "CO_s") .other = .ok (.exception .ParameterError) := rfl
example : stateConserveArg (str! "CO_s") (.state (str! "CO_s")) = .ok .true := by decide

/-! ## C63 -/

/-- **C63** A setup that gives a value to something the model computes or to a constant is refused. -/
theorem C63_protected (key : Str) (hkey : key ∈ [str! "log_allowed", str! "kB", str! "h", str! "logger", str! "elementary_rxns_list",
      str! "site_names", str! "adsorbate_names", str! "gas_names", str! "liquid_names", str! "transition_state_names",
      str! "has_relative_energy", str! "has_absolute_energy", str! "relative_energies", str! "absolute_energies", str! "model_info",
      str! "data_file", str! "steady_state_coverages", str! "TOFs", str! "reversibilities", str! "error"])
    (setup : Dict Str PyVal) (hn : (setup.map (·.1)).Nodup) (v : PyVal) (hv : (key, v) ∈ setup) (inst : Dict Str PyVal) (m : Loaded) :
    load microAttrs microName microLoad inst setup ≠ .ok m := by
  intro h
  obtain ⟨i, hi, -⟩ := bind_ok.mp h
  have hro : LoopSets microAttrs key .readonly := by
    have : ∀ key ∈ [str! "log_allowed", str! "kB", str! "h", str! "logger", str! "elementary_rxns_list",
      str! "site_names", str! "adsorbate_names", str! "gas_names", str! "liquid_names", str! "transition_state_names",
      str! "has_relative_energy", str! "has_absolute_energy", str! "relative_energies", str! "absolute_energies", str! "model_info",
      str! "data_file", str! "steady_state_coverages", str! "TOFs", str! "reversibilities", str! "error"],
        (match get? microAttrs key with | some .readonly => true | _ => false) = true ∧ key ∉ laterKeys := by decide +kernel
    obtain ⟨h1, h2⟩ := this key hkey
    refine ⟨?_, h2⟩
    split at h1
    · assumption
    · cases h1
  exact ((C63_loop microAttrs microName C63_slots setup hn inst).1.mp ⟨i, hi⟩) key v .readonly hv hro

/-- **C63** An entry with the name of a method is accepted whatever it is, and takes the place of the method. -/
theorem C63_methods (key : Str) (hkey : key ∈ [str! "_set_logger", str! "set_logger_level", str! "clear_handlers", str! "_load",
      str! "generate_relative_energies_file", str! "generate_absolute_energies_file", str! "run", str! "set_solver", str! "set_corrector",
      str! "set_plotter", str! "hybrid_method", str! "hybrid_method_register", str! "analysis_register"])
    (setup : Dict Str PyVal) (hn : (setup.map (·.1)).Nodup) (v : PyVal) (hv : (key, v) ∈ setup) (inst inst' : Dict Str PyVal)
    (h : loadLoop microAttrs microName inst setup = .ok inst') : get? inst' key = some v := by
  have hro : LoopSets microAttrs key .plain := by
    have : ∀ key ∈ [str! "_set_logger", str! "set_logger_level", str! "clear_handlers", str! "_load",
      str! "generate_relative_energies_file", str! "generate_absolute_energies_file", str! "run", str! "set_solver", str! "set_corrector",
      str! "set_plotter", str! "hybrid_method", str! "hybrid_method_register", str! "analysis_register"],
        (match get? microAttrs key with | some .plain => true | _ => false) = true ∧ key ∉ laterKeys := by decide +kernel
    obtain ⟨h1, h2⟩ := this key hkey
    refine ⟨?_, h2⟩
    split at h1
    · assumption
    · cases h1
  exact ((C63_loop microAttrs microName C63_slots setup hn inst).2 inst' h).1 key v .plain hv hro

/-- **C63** Reaction expressions are accepted exactly if they are a sequence of texts. -/
theorem C63_expression_check (v : PyVal) : exprsDescr.check v = .ok () ↔ ∃ l : List Str, v.seq? = some (l.map .str) := by
  show sequenceCheck (some .str) none v = .ok () ↔ _
  unfold sequenceCheck
  cases hs : v.seq? with
  | none => exact ⟨(fun h => nomatch h), (fun ⟨_, h⟩ => nomatch h)⟩
  | some l =>
    dsimp only
    constructor
    · intro h
      split at h
      · cases h
      · rename_i hany
        have hall : ∀ e ∈ l, ∃ s, e = .str s := by
          intro e he
          have : e.type = .str := by
            by_contra hne
            exact hany (List.any_eq_true.mpr ⟨e, he, by simpa using hne⟩)
          cases e <;> first | exact ⟨_, rfl⟩ | cases this
        clear hs hany h
        induction l with
        | nil => exact ⟨[], rfl⟩
        | cons e l ih =>
          obtain ⟨s, rfl⟩ := hall e (by simp)
          obtain ⟨k, hk⟩ := ih fun e he => hall e (by simp [he])
          exact ⟨s :: k, by rw [Option.some.inj hk]; rfl⟩
    · rintro ⟨k, hk⟩
      rw [Option.some.inj hk, if_neg]
      · rfl
      · simp [PyVal.type]

/-- **C63** The names under which parts are known, for the loop and for the later assignment of parser and solver. -/
theorem C63_part_names (part name : Str) : (∃ c, get? microAttrs part = some (.component part c) ∧ name ∈ c) ↔
    (part, name) ∈ [(str! "parser", str! "RelativeEnergyParser"), (str! "parser", str! "AbsoluteEnergyParser"), (str! "parser", str! "KMCParser"),
      (str! "solver", str! "KMCSolver"), (str! "solver", str! "SteadyStateSolver"), (str! "corrector", str! "ThermodynamicCorrector"),
      (str! "plotter", str! "EnergyProfilePlotter")] := by
  have tbl : (microAttrs.filterMap fun p => match p.2 with | .component n c => some (p.1, n, c) | _ => none) =
      [(str! "parser", str! "parser", [str! "RelativeEnergyParser", str! "AbsoluteEnergyParser", str! "KMCParser"]),
       (str! "solver", str! "solver", [str! "KMCSolver", str! "SteadyStateSolver"]),
       (str! "corrector", str! "corrector", [str! "ThermodynamicCorrector"]), (str! "plotter", str! "plotter", [str! "EnergyProfilePlotter"])] := by
    decide +kernel
  constructor
  · rintro ⟨c, hc, hname⟩
    have : (part, part, c) ∈ microAttrs.filterMap fun p => match p.2 with | .component n c => some (p.1, n, c) | _ => none :=
      List.mem_filterMap.mpr ⟨_, mem_of_get? hc, rfl⟩
    rw [tbl] at this
    simp only [List.mem_cons, List.not_mem_nil, or_false, Prod.mk.injEq] at this ⊢
    rcases this with ⟨rfl, -, rfl⟩ | ⟨rfl, -, rfl⟩ | ⟨rfl, -, rfl⟩ | ⟨rfl, -, rfl⟩ <;>
      simp only [List.mem_cons, List.not_mem_nil, or_false] at hname <;> simp [hname]
  · intro h
    simp only [List.mem_cons, List.not_mem_nil, or_false, Prod.mk.injEq] at h
    rcases h with ⟨rfl, rfl⟩ | ⟨rfl, rfl⟩ | ⟨rfl, rfl⟩ | ⟨rfl, rfl⟩ | ⟨rfl, rfl⟩ | ⟨rfl, rfl⟩ | ⟨rfl, rfl⟩ <;> exact ⟨_, rfl, by decide⟩

example : (([(str! "kB", .float 1), (str! "run", .int 3)] : Dict Str PyVal).map (·.1)).Nodup ∧
    (str! "kB", PyVal.float 1) ∈ ([(str! "kB", .float 1), (str! "run", .int 3)] : Dict Str PyVal) ∧
    loadLoop microAttrs microName [] [(str! "run", .int 3)] = .ok [(str! "run", .int 3)] :=
  ⟨by decide, by simp, rfl⟩

/-! ## C114 -/

/-- **C114** Once every process has cleaned up no process is held at the barrier. -/
theorem C114_no_deadlock (n : Nat) (w : CleanWorld) (h : ∀ q, q < n → w.pc q ≠ .start) (r : Nat) (name : Str) :
    ∃ w', cleanStep n w r name = some w' ∧ (w.pc r ≠ .start → w'.pc r = .running) ∧ ∀ q, q < n → w'.pc q ≠ .start := by
  unfold cleanStep
  cases hpc : w.pc r with
  | start =>
    refine ⟨_, rfl, fun hne => absurd rfl hne, fun q hq => ?_⟩
    show (if q = r then CleanPc.waiting else w.pc q) ≠ .start
    by_cases hqr : q = r
    · rw [if_pos hqr]; exact (fun h => nomatch h)
    · rw [if_neg hqr]; exact h q hq
  | waiting =>
    have hall : ((List.range n).all fun q => w.pc q != .start) = true := by
      rw [List.all_eq_true]
      intro q hq
      simpa using h q (List.mem_range.mp hq)
    dsimp only
    rw [if_pos hall]
    refine ⟨_, rfl, fun _ => ?_, fun q hq => ?_⟩
    · show (if r = r then CleanPc.running else w.pc r) = .running
      rw [if_pos rfl]
    · show (if q = r then CleanPc.running else w.pc q) ≠ .start
      by_cases hqr : q = r
      · rw [if_pos hqr]; exact (fun h => nomatch h)
      · rw [if_neg hqr]; exact h q hq
  | running => exact ⟨_, rfl, fun _ => hpc, h⟩

/-- One process has run and the other waits; both can go on. -/
example : let w := cleanRun 2 (cleanInit []) [(0, []), (1, []), (0, [])]
    w.pc 0 = .running ∧ w.pc 1 = .waiting ∧ (∀ q, q < 2 → w.pc q ≠ .start) := by
  decide

/-! ## C78 -/

theorem lexChar_closed {st : Lexer} {c : Char} {items : List TItem} (h : lexChar st c = some ⟨items, .closed⟩) :
    c = ']' ∨ isSpace c = true ∧ st = ⟨items, .closed⟩ := by
  obtain ⟨its, mode⟩ := st
  unfold lexChar at h
  cases mode with
  | closed =>
    dsimp only at h
    split at h
    · rename_i hs
      exact .inr ⟨hs, Option.some.inj h⟩
    · cases h
  | inNest d acc =>
    dsimp only at h
    split at h
    · cases Option.some.inj h
    · split at h
      · split at h <;> cases Option.some.inj h
      · cases Option.some.inj h
  | sep =>
    dsimp only at h
    repeat' split at h
    all_goals first | (left; assumption) | (exfalso; cases h)
  | inTok acc =>
    dsimp only at h
    repeat' split at h
    all_goals first | (left; assumption) | (exfalso; cases h)
  | inStr acc =>
    dsimp only at h
    repeat' split at h
    all_goals cases h
  | after =>
    dsimp only at h
    repeat' split at h
    all_goals first | (left; assumption) | (exfalso; cases h)

/-- **C78** A list is read only from a text that closes it: a bracket with nothing but white space behind it. -/
theorem C78_closed (s : Str) (items : List TItem) (h : readElems s = some items) : ∃ a b, s = a ++ ']' :: b ∧ ∀ c ∈ b, isSpace c = true := by
  have key : ∀ (s : Str), s.foldlM lexChar ⟨[], .sep⟩ = some ⟨items, .closed⟩ → ∃ a b, s = a ++ ']' :: b ∧ ∀ c ∈ b, isSpace c = true := by
    intro s
    induction s using List.reverseRecOn with
    | nil => intro h; cases h
    | append_singleton s c ih =>
      intro h
      rw [List.foldlM_append] at h
      cases hs : s.foldlM lexChar ⟨[], .sep⟩ with
      | none => rw [hs] at h; cases h
      | some st =>
        rw [hs] at h
        have h' : lexChar st c = some ⟨items, .closed⟩ := by
          simpa [List.foldlM] using h
        rcases lexChar_closed h' with rfl | ⟨hc, rfl⟩
        · exact ⟨s, [], rfl, by simp⟩
        · obtain ⟨a, b, e, hb⟩ := ih hs
          refine ⟨a, b ++ [c], by rw [e]; simp, fun x hx => ?_⟩
          rcases List.mem_append.mp hx with hx | hx
          · exact hb x hx
          · rw [List.mem_singleton] at hx
            rw [hx]
            exact hc
  unfold readElems at h
  split at h
  · rename_i its hs
    cases h
    exact key s hs
  · cases h

example : readElems (str! "1, 2]\n") = some [.tok (str! "1"), .tok (str! "2")] ∧ readElems (str! "1, 2") = none := by decide

/-! ## C40 -/

theorem powMod_eq (p : Nat) : ∀ f b e, e < 2 ^ f → powMod p f b e = b ^ e % p
  | 0, b, e, h => by
    have : e = 0 := by simpa using h
    subst this
    rfl
  | f + 1, b, e, h => by
    have he : e / 2 < 2 ^ f := by
      rw [pow_succ] at h
      omega
    unfold powMod
    rw [powMod_eq p f _ _ he]
    have hb : (b * b % p) ^ (e / 2) % p = b ^ (2 * (e / 2)) % p := by
      rw [← Nat.pow_mod, ← sq, ← pow_mul]
    split
    · rename_i h1
      have h2 : e = 2 * (e / 2) + 1 := by omega
      conv_rhs => rw [h2, pow_succ, mul_comm, Nat.mul_mod]
      rw [hb, Nat.mul_mod, Nat.mod_mod]
    · rename_i h1
      have h2 : e = 2 * (e / 2) := by omega
      rw [hb, ← h2]

theorem mersenne61 : Nat.Prime (2 ^ 61 - 1) := by
  have : (mersenne 61).Prime := lucas_lehmer_sufficiency _ (by norm_num) (by norm_num)
  exact this

/-- **C40** The hash of a number is its residue modulo the prime 2^61 - 1, with the sign of the number; -1 gives -2. -/
theorem C40_hash (x : ℚ) (hd : ¬ (2 ^ 61 - 1 : Nat) ∣ x.den) :
    ∃ h : Int, pyHash x = (if h = -1 then -2 else h) ∧ |h| < 2 ^ 61 - 1 ∧ (0 ≤ x → 0 ≤ h) ∧ (x < 0 → h ≤ 0) ∧
      h * x.den ≡ x.num [ZMOD 2 ^ 61 - 1] := by
  have hp := mersenne61
  obtain ⟨p, hpd⟩ : ∃ p : Nat, p = 2 ^ 61 - 1 := ⟨_, rfl⟩
  have hpz : (2 ^ 61 - 1 : Int) = (p : Int) := by rw [hpd]; norm_num
  rw [hpz]
  rw [← hpd] at hp hd
  obtain ⟨m, hm⟩ : ∃ m, m = (x.num.natAbs % p * powMod p 61 (x.den % p) (p - 2)) % p := ⟨_, rfl⟩
  have hmp : m < p := by rw [hm]; exact Nat.mod_lt _ hp.pos
  have hden : m * x.den ≡ x.num.natAbs [MOD p] := by
    have hpow : powMod p 61 (x.den % p) (p - 2) = (x.den % p) ^ (p - 2) % p := powMod_eq p 61 _ _ (by rw [hpd]; norm_num)
    have hfer : x.den ^ (p - 1) ≡ 1 [MOD p] := by
      have hco : Nat.Coprime x.den p := ((Nat.Prime.coprime_iff_not_dvd hp).mpr hd).symm
      have := Nat.ModEq.pow_totient hco
      rwa [Nat.totient_prime hp] at this
    have e1 : m ≡ x.num.natAbs * x.den ^ (p - 2) [MOD p] := by
      rw [hm, hpow]
      have a1 : x.num.natAbs % p ≡ x.num.natAbs [MOD p] := Nat.mod_modEq _ _
      have a2 : (x.den % p) ^ (p - 2) % p ≡ x.den ^ (p - 2) [MOD p] :=
        (Nat.mod_modEq _ _).trans ((Nat.mod_modEq _ _).pow _)
      exact (Nat.mod_modEq _ _).trans (a1.mul a2)
    have e2 := e1.mul_right x.den
    rw [mul_assoc, ← pow_succ, show p - 2 + 1 = p - 1 by have := hp.two_le; omega] at e2
    have e3 := hfer.mul_left x.num.natAbs
    rw [mul_one] at e3
    exact e2.trans e3
  have hz : (m : Int) * x.den ≡ x.num.natAbs [ZMOD p] := by
    have := (Int.natCast_modEq_iff).mpr hden
    push_cast at this
    simpa using this
  refine ⟨if x < 0 then -(m : Int) else m, ?_, ?_, ?_, ?_, ?_⟩
  · unfold pyHash
    dsimp only
    rw [← hpd, ← hm]
  · have : |if x < 0 then -(m : Int) else m| = m := by
      split
      · rw [abs_neg, Nat.abs_cast]
      · rw [Nat.abs_cast]
    rw [this]
    exact_mod_cast hmp
  · intro h0
    rw [if_neg (not_lt.mpr h0)]
    exact Int.natCast_nonneg m
  · intro h0
    rw [if_pos h0]
    omega
  · by_cases h0 : x < 0
    · rw [if_pos h0]
      have hn : x.num = -(x.num.natAbs : Int) := by
        have := Rat.num_neg.mpr h0
        omega
      rw [hn, neg_mul]
      exact hz.neg
    · rw [if_neg h0]
      have hn : x.num = (x.num.natAbs : Int) := by
        have := Rat.num_nonneg.mpr (not_lt.mp h0)
        omega
      rw [hn]
      exact hz

/-- **C40** Whole numbers of at most 60 binary digits other than -1 are their own hashes: energies changed among them are noticed. -/
theorem C40_hash_small (z : Int) (hz : |z| < 2 ^ 61 - 1) (h1 : z ≠ -1) : pyHash (z : ℚ) = z := by
  obtain ⟨h, e1, e2, e3, e4, e5⟩ := C40_hash (z : ℚ) (by
    rw [Rat.den_intCast]
    norm_num)
  rw [Rat.den_intCast, Rat.num_intCast, Nat.cast_one, mul_one] at e5
  have : h = z := by
    have hdiv : (2 ^ 61 - 1 : Int) ∣ z - h := Int.ModEq.dvd e5
    obtain ⟨c, hc⟩ := hdiv
    obtain ⟨a1, a2⟩ := abs_lt.mp hz
    obtain ⟨b1, b2⟩ := abs_lt.mp e2
    rcases le_or_gt 0 z with h0 | h0
    · have := e3 (by exact_mod_cast h0)
      have hc0 : c = 0 := by omega
      subst hc0
      omega
    · have := e4 (by exact_mod_cast h0)
      have hc0 : c = 0 := by omega
      subst hc0
      omega
  rw [e1, this, if_neg h1]

example : ¬ (2 ^ 61 - 1 : Nat) ∣ (1 / 2 : ℚ).den ∧ |(-2 : Int)| < 2 ^ 61 - 1 := by
  refine ⟨?_, by norm_num⟩
  have : (1 / 2 : ℚ).den = 2 := by norm_num
  rw [this]
  norm_num
example : pyHash ((-2 : Int) : ℚ) = -2 := C40_hash_small (-2) (by norm_num) (by norm_num)

/-! ## C98 columns -/

/-- The heads and the values of the second and third column begin below each other, after 11 and `11 + w` characters; the
head is between the title and a rule of `dashes` characters. -/
def Aligned (text : Str) (w dashes : Nat) (second third : Str) (items : List (Str × ℚ)) : Prop :=
  (∃ head, (splitOn '\n' text)[2]? = some head ∧ second <+: head.drop 11 ∧ third <+: head.drop (11 + w)) ∧
  (splitOn '\n' text)[3]? = some (List.replicate dashes '-') ∧
  ∀ (i : Nat) name x, items[i]? = some (name, x) → ∃ line, (splitOn '\n' text)[i + 4]? = some line ∧ name <+: line.drop 11 ∧
    (name.length ≤ w → sciText 16 x <+: line.drop (11 + w))

theorem zfill_width {i : Nat} (hi : i < 10 ^ 10) : (zfill 2 (Nat.toDigits 10 i)).length ≤ 10 := by
  have := (Nat.length_toDigits_le_iff (b := 10) (n := i) (k := 10) (by norm_num) (by norm_num)).mpr hi
  unfold zfill
  rw [List.length_append, List.length_replicate]
  omega

theorem drop_columns {a : Str} (ha : a.length = 10) (w : Nat) (s t : Str) :
    s <+: (' ' :: (a ++ (ljust w s ++ t))).drop 11 ∧ (s.length ≤ w → t <+: (' ' :: (a ++ (ljust w s ++ t))).drop (11 + w)) := by
  have e : (' ' :: (a ++ (ljust w s ++ t))).drop 11 = ljust w s ++ t := by
    rw [List.drop_succ_cons, List.drop_left' ha]
  refine ⟨?_, fun hs => ?_⟩
  · rw [e]
    unfold ljust
    rw [List.append_assoc]
    exact List.prefix_append _ _
  · rw [← List.drop_drop, e, List.drop_left' (ljust_length hs)]

theorem indexTable_aligned {title second third : Str} {w dashes : Nat} {names : List Str} {xs : List ℚ}
    (ht : '\n' ∉ title) (h2 : '\n' ∉ second) (h3 : '\n' ∉ third) (hw : second.length ≤ w)
    (hn : ∀ s ∈ names, PlainName s) (hl : names.length ≤ 10 ^ 10) :
    Aligned (indexTable title second third w dashes names xs) w dashes second third (names.zip xs) := by
  have hrule : '\n' ∉ (List.replicate dashes '-' : Str) := fun h => absurd (List.eq_of_mem_replicate h) (by decide)
  have hhead : '\n' ∉ (' ' :: (ljust 10 (str! "index") ++ (ljust w second ++ ljust 30 third)) : Str) := by
    rw [List.mem_cons, List.mem_append, List.mem_append]
    rintro (h | h | h | h)
    · exact absurd h (by decide)
    · exact ljust_line (by decide) h
    · exact ljust_line h2 h
    · exact ljust_line h3 h
  have hsplit : ∀ (l : List ((Str × ℚ) × Nat)), (∀ p ∈ l, PlainName p.1.1) → splitOn '\n' (l.flatMap (indexRow w) ++ (List.replicate dashes '-' ++ ['\n']))
      = l.map (rowLine w) ++ [List.replicate dashes '-', []] := by
    intro l hl
    induction l with
    | nil =>
      rw [List.flatMap_nil, List.nil_append, splitOn_append hrule]
      rfl
    | cons p l ih =>
      rw [List.flatMap_cons, indexRow_eq, List.append_assoc, splitOn_endLine (rowLine_line (hl p (by simp))), ih (fun q hq => hl q (by simp [hq]))]
      rfl
  have hlines : splitOn '\n' (indexTable title second third w dashes names xs) =
      title :: [] :: (' ' :: (ljust 10 (str! "index") ++ (ljust w second ++ ljust 30 third))) :: List.replicate dashes '-' ::
        ((names.zip xs).zipIdx.map (rowLine w) ++ [List.replicate dashes '-', []]) := by
    have e : indexTable title second third w dashes names xs =
        title ++ '\n' :: ([] ++ '\n' :: ((' ' :: (ljust 10 (str! "index") ++ (ljust w second ++ ljust 30 third))) ++ '\n' ::
          (List.replicate dashes '-' ++ '\n' :: ((names.zip xs).zipIdx.flatMap (indexRow w) ++ (List.replicate dashes '-' ++ ['\n']))))) := by
      unfold indexTable
      simp
    rw [e, splitOn_append ht, splitOn_append (by simp), splitOn_append hhead, splitOn_append hrule, hsplit]
    intro p hp
    have := List.fst_mem_of_mem_zipIdx hp
    exact hn _ (List.of_mem_zip this).1
  unfold Aligned
  rw [hlines]
  refine ⟨⟨_, rfl, ?_, ?_⟩, rfl, ?_⟩
  · exact (drop_columns (ljust_length (by decide)) w second _).1
  · exact List.IsPrefix.trans (List.prefix_append _ _) ((drop_columns (a := ljust 10 (str! "index")) (ljust_length (by decide)) w second (ljust 30 third)).2 hw)
  · intro i name x hi
    have hlt : i < (names.zip xs).length := (List.getElem?_eq_some_iff.mp hi).1
    have hi' : i < names.length := by
      rw [List.length_zip] at hlt
      omega
    refine ⟨rowLine w ((name, x), i), ?_, ?_, ?_⟩
    · show (((names.zip xs).zipIdx.map (rowLine w) ++ [List.replicate dashes '-', []]))[i]? = _
      rw [List.getElem?_append_left (by simpa using hlt), List.getElem?_map, List.getElem?_zipIdx, hi]
      simp
    · exact (drop_columns (ljust_length (zfill_width (by omega))) w name _).1
    · intro hw
      exact List.IsPrefix.trans (List.prefix_append _ _) ((drop_columns (ljust_length (zfill_width (by omega))) w name _).2 hw)

/-- **C98** Heads and values stand in columns. -/
theorem C98_columns (names : List Str) (hn : ∀ s ∈ names, PlainName s) (hl : names.length ≤ 10 ^ 10) (xs : List ℚ) (gas : Str) (hg : '\n' ∉ gas) :
    Aligned (logTof names xs) 25 60 (str! "gas name") (str! "TOF") (names.zip xs) ∧
    Aligned (logCoverages names xs) 25 60 (str! "intermediate name") (str! "steady state coverage") (names.zip xs) ∧
    Aligned (logReversibilities names xs) 70 100 (str! "elementary reaction") (str! "reversibilities") (names.zip xs) ∧
    Aligned (logXRC gas names xs) 70 100 (str! "elementary reaction") (str! "XRC") (names.zip xs) := by
  refine ⟨indexTable_aligned (by decide) (by decide) (by decide) (by decide) hn hl, indexTable_aligned (by decide) (by decide) (by decide) (by decide) hn hl,
    indexTable_aligned (by decide) (by decide) (by decide) (by decide) hn hl, indexTable_aligned ?_ (by decide) (by decide) (by decide) hn hl⟩
  rw [List.mem_append, List.mem_append]
  rintro ((h | h) | h)
  · exact absurd h (by decide)
  · exact hg h
  · exact absurd h (by decide)

example : Aligned (logTof [str! "CO2_g", str! "CO_g"] [1 / 3, -2]) 25 60 (str! "gas name") (str! "TOF") [(str! "CO2_g", 1 / 3), (str! "CO_g", -2)] :=
  (C98_columns [str! "CO2_g", str! "CO_g"] (by
    intro r hr
    simp only [List.mem_cons, List.not_mem_nil, or_false] at hr
    rcases hr with rfl | rfl <;> exact ⟨by decide, by decide⟩) (by decide) [1 / 3, -2] [] (by decide)).1

end Verif
