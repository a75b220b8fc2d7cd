import Verif.Model.Format
import Verif.Props.Templates
/-
Texts of lists and dictionaries are read back (C78).
-/
namespace Verif
open Dict

/-- Texts with matching brackets. -/
inductive Inner : Str → Prop
  | nil : Inner []
  | char (c : Char) (s : Str) : c ≠ '(' → c ≠ '[' → c ≠ ')' → c ≠ ']' → Inner s → Inner (c :: s)
  | group (o c : Char) (a b : Str) : (o = '(' ∨ o = '[') → (c = ')' ∨ c = ']') → Inner a → Inner b → Inner (o :: a ++ c :: b)

/-- The texts that stand for one element: numbers without blanks, commas, quotes and brackets; strings without quotes,
backslashes and line ends; lists and tuples with matching brackets. -/
def TItem.fine : TItem → Prop
  | .tok s => s ≠ [] ∧ ∀ c ∈ s, isSpace c = false ∧ c ≠ ',' ∧ c ≠ '\'' ∧ c ≠ '(' ∧ c ≠ ')' ∧ c ≠ '[' ∧ c ≠ ']'
  | .quoted s => ∀ c ∈ s, c ≠ '\'' ∧ c ≠ '\\' ∧ c ≠ '\n'
  | .nested s => ∃ o a c, s = o :: a ++ [c] ∧ (o = '(' ∨ o = '[') ∧ (c = ')' ∨ c = ']') ∧ Inner a

theorem lex_inner {a : Str} (h : Inner a) : ∀ (items : List TItem) (d : Nat) (acc : Str),
    a.foldlM lexChar ⟨items, .inNest d acc⟩ = some ⟨items, .inNest d (acc ++ a)⟩ := by
  induction h with
  | nil => intro items d acc; simp
  | char c s h1 h2 h3 h4 _ ih =>
    intro items d acc
    have : lexChar ⟨items, .inNest d acc⟩ c = some ⟨items, .inNest d (acc ++ [c])⟩ := by
      simp [lexChar, h1, h2, h3, h4]
    rw [List.foldlM_cons, this, Option.bind_eq_bind, Option.bind_some, ih]
    simp
  | group o c a b ho hc _ _ iha ihb =>
    intro items d acc
    have h1 : lexChar ⟨items, .inNest d acc⟩ o = some ⟨items, .inNest (d + 1) (acc ++ [o])⟩ := by
      unfold lexChar; dsimp only; rw [if_pos ho]
    have h2 : ∀ acc, lexChar ⟨items, .inNest (d + 1) acc⟩ c = some ⟨items, .inNest d (acc ++ [c])⟩ := by
      intro acc
      unfold lexChar
      dsimp only
      rw [if_neg (by rcases hc with rfl | rfl <;> decide), if_pos hc]
    rw [List.cons_append, List.foldlM_cons, h1, Option.bind_eq_bind, Option.bind_some, List.foldlM_append, iha,
      Option.bind_eq_bind, Option.bind_some, List.foldlM_cons, h2, Option.bind_eq_bind, Option.bind_some, ihb]
    simp

theorem lex_tok {s : Str} (h : ∀ c ∈ s, isSpace c = false ∧ c ≠ ',' ∧ c ≠ '\'' ∧ c ≠ '(' ∧ c ≠ ')' ∧ c ≠ '[' ∧ c ≠ ']')
    (items : List TItem) (acc : Str) : s.foldlM lexChar ⟨items, .inTok acc⟩ = some ⟨items, .inTok (acc ++ s)⟩ := by
  induction s generalizing acc with
  | nil => simp
  | cons c s ih =>
    obtain ⟨h1, h2, h3, h4, h5, h6, h7⟩ := h c (by simp)
    have : lexChar ⟨items, .inTok acc⟩ c = some ⟨items, .inTok (acc ++ [c])⟩ := by simp [lexChar, h1, h2, h3, h4, h5, h6, h7]
    rw [List.foldlM_cons, this, Option.bind_eq_bind, Option.bind_some, ih (fun d hd => h d (by simp [hd]))]
    simp

theorem lex_str {s : Str} (h : ∀ c ∈ s, c ≠ '\'' ∧ c ≠ '\\' ∧ c ≠ '\n') (items : List TItem) (acc : Str) :
    s.foldlM lexChar ⟨items, .inStr acc⟩ = some ⟨items, .inStr (acc ++ s)⟩ := by
  induction s generalizing acc with
  | nil => simp
  | cons c s ih =>
    obtain ⟨h1, h2, h3⟩ := h c (by simp)
    have : lexChar ⟨items, .inStr acc⟩ c = some ⟨items, .inStr (acc ++ [c])⟩ := by simp [lexChar, h1, h2, h3]
    rw [List.foldlM_cons, this, Option.bind_eq_bind, Option.bind_some, ih (fun d hd => h d (by simp [hd]))]
    simp

theorem lex_space {s : Str} (h : ∀ c ∈ s, isSpace c = true) (items : List TItem) :
    s.foldlM lexChar ⟨items, .sep⟩ = some ⟨items, .sep⟩ := by
  induction s with
  | nil => simp
  | cons c s ih =>
    have : lexChar ⟨items, .sep⟩ c = some ⟨items, .sep⟩ := by simp [lexChar, h c (by simp)]
    rw [List.foldlM_cons, this, Option.bind_eq_bind, Option.bind_some, ih (fun d hd => h d (by simp [hd]))]

/-- The text of an element. -/
def TItem.written : TItem → Str
  | .tok s => s
  | .quoted s => '\'' :: s ++ ['\'']
  | .nested s => s

theorem lex_item {t : TItem} (h : t.fine) (items : List TItem) :
    (t.written ++ [',']).foldlM lexChar ⟨items, .sep⟩ = some ⟨items ++ [t], .sep⟩ := by
  cases t with
  | tok s =>
    obtain ⟨hne, hs⟩ := h
    cases s with
    | nil => exact absurd rfl hne
    | cons c s =>
      obtain ⟨h1, h2, h3, h4, h5, h6, h7⟩ := hs c (by simp)
      have : lexChar ⟨items, .sep⟩ c = some ⟨items, .inTok [c]⟩ := by simp [lexChar, h1, h2, h3, h4, h5, h6, h7]
      simp only [TItem.written, List.cons_append]
      rw [List.foldlM_cons, this, Option.bind_eq_bind, Option.bind_some, List.foldlM_append, lex_tok (fun d hd => hs d (by simp [hd]))]
      rfl
  | quoted s =>
    simp only [TItem.written, List.cons_append, List.append_assoc]
    have : lexChar ⟨items, .sep⟩ '\'' = some ⟨items, .inStr []⟩ := rfl
    rw [List.foldlM_cons, this, Option.bind_eq_bind, Option.bind_some, List.foldlM_append, lex_str h]
    rfl
  | nested s =>
    obtain ⟨o, a, c, rfl, ho, hc, ha⟩ := h
    have h1 : lexChar ⟨items, .sep⟩ o = some ⟨items, .inNest 0 [o]⟩ := by rcases ho with rfl | rfl <;> rfl
    have h2 : ∀ acc, lexChar ⟨items, .inNest 0 acc⟩ c = some ⟨items ++ [.nested (acc ++ [c])], .after⟩ := by
      intro acc
      unfold lexChar
      dsimp only
      rw [if_neg (by rcases hc with rfl | rfl <;> decide), if_pos hc]
    simp only [TItem.written, List.cons_append, List.append_assoc]
    rw [List.foldlM_cons, h1, Option.bind_eq_bind, Option.bind_some, List.foldlM_append, lex_inner ha, Option.bind_eq_bind, Option.bind_some,
      List.foldlM_cons, h2]
    rfl

theorem listBody_ok {ncols : Nat} (hc : 0 < ncols) (l : List TItem) (hl : ∀ t ∈ l, t.fine) : ∀ idx, ∃ data, listBody ncols idx l = .ok data ∧
    ∀ items, data.foldlM lexChar ⟨items, .sep⟩ = some ⟨items ++ l, .sep⟩ := by
  induction l with
  | nil => intro idx; exact ⟨[], rfl, fun items => by simp⟩
  | cons t l ih =>
    intro idx
    obtain ⟨rest, hr, hlex⟩ := ih (fun t' ht' => hl t' (by simp [ht'])) (idx + 1)
    have ht := hl t (by simp)
    have hlexed : ∀ (pre post : Str) (items : List TItem), (∀ c ∈ pre, isSpace c = true) → (∀ c ∈ post, isSpace c = true) →
        (pre ++ ((t.written ++ [',']) ++ (post ++ rest))).foldlM lexChar ⟨items, .sep⟩ = some ⟨items ++ t :: l, .sep⟩ := by
      intro pre post items h1 h2
      rw [List.foldlM_append, lex_space h1, Option.bind_eq_bind, Option.bind_some, List.foldlM_append, lex_item ht, Option.bind_eq_bind,
        Option.bind_some, List.foldlM_append, lex_space h2, Option.bind_eq_bind, Option.bind_some, hlex]
      simp
    have hpre : ∀ c ∈ (if idx % ncols = 0 then str! "\n    " else []), isSpace c = true := by
      split
      · decide
      · simp
    cases t with
    | tok s =>
      refine ⟨_, by rw [listBody, if_neg (by omega), hr]; rfl, fun items => ?_⟩
      have := hlexed (if idx % ncols = 0 then str! "\n    " else []) [' '] items hpre (by decide)
      rw [← this]
      simp [TItem.written]
    | quoted s =>
      refine ⟨_, by rw [listBody, if_neg (by omega), hr]; rfl, fun items => ?_⟩
      have := hlexed (if idx % ncols = 0 then str! "\n    " else []) [' '] items hpre (by decide)
      rw [← this]
      simp [TItem.written]
    | nested s =>
      refine ⟨_, by rw [listBody, hr]; rfl, fun items => ?_⟩
      have := hlexed (str! "\n    ") [] items (by decide) (by simp)
      rw [← this]
      simp [TItem.written]

/-- **C78** (partial) The text of a list is an assignment that gives back the name and every element in order, for any number
of columns. Missing: zero columns, and strings with quotes, backslashes or line ends (`C78_quote_refuted`). -/
theorem C78_list_partial (name : Str) (items : List TItem) (ncols : Nat) (hc : 0 < ncols) (hn : ' ' ∉ name) (hl : ∀ t ∈ items, t.fine) :
    ∃ s, listString name items ncols = .ok s ∧ readListText s = some (name, items) := by
  obtain ⟨data, hd, hlex⟩ := listBody_ok hc items hl 0
  refine ⟨name ++ str! " = [" ++ data ++ str! "\n]\n\n", by unfold listString; rw [hd]; rfl, ?_⟩
  have e : name ++ str! " = [" ++ data ++ str! "\n]\n\n" = name ++ ' ' :: (str! "= [" ++ (data ++ str! "\n]\n\n")) := by simp
  have hread : readElems (data ++ str! "\n]\n\n") = some items := by
    unfold readElems
    rw [List.foldlM_append, hlex]
    rfl
  unfold readListText
  rw [e, upTo_append hn]
  simp [hread]

/-- **C78** With zero columns the call fails as soon as an element is not a list or tuple. -/
theorem C78_columns (name : Str) (items : List TItem) : (∃ s, listString name items 0 = .ok s) ↔ ∀ t ∈ items, ∃ s, t = .nested s := by
  have key : ∀ idx, (∃ s, listBody 0 idx items = .ok s) ↔ ∀ t ∈ items, ∃ s, t = .nested s := by
    induction items with
    | nil => intro idx; exact ⟨fun _ => by simp, fun _ => ⟨_, rfl⟩⟩
    | cons t l ih =>
      intro idx
      cases t with
      | nested s =>
        simp only [List.mem_cons, forall_eq_or_imp]
        rw [← ih (idx + 1)]
        constructor
        · rintro ⟨d, h⟩
          rw [listBody] at h
          obtain ⟨r, hr, -⟩ := bind_ok.mp h
          exact ⟨⟨s, rfl⟩, r, hr⟩
        · rintro ⟨-, r, hr⟩
          exact ⟨_, by rw [listBody, hr]; rfl⟩
      | tok s =>
        refine ⟨fun ⟨d, h⟩ => (nomatch h), fun h => ?_⟩
        obtain ⟨s', hs⟩ := h (.tok s) (by simp)
        cases hs
      | quoted s =>
        refine ⟨fun ⟨d, h⟩ => (nomatch h), fun h => ?_⟩
        obtain ⟨s', hs⟩ := h (.quoted s) (by simp)
        cases hs
  rw [← key 0]
  unfold listString
  constructor
  · rintro ⟨s, h⟩
    obtain ⟨r, hr, -⟩ := bind_ok.mp h
    exact ⟨r, hr⟩
  · rintro ⟨r, hr⟩
    exact ⟨_, by rw [hr]; rfl⟩

/-! ### Dictionaries -/

theorem readItems_plain {K : Type} {num : Str → Option K} {name v : Str} {x : K} (hn : ∀ c ∈ name, NameChar c) (hv : Numeral num v x)
    (d : Dict Str K) (rest : Str) :
    readItems num (splitOn '\n' (str! "    '" ++ name ++ str! "': " ++ v ++ str! ",\n" ++ rest)) d = readItems num (splitOn '\n' rest) (d.set name x) := by
  have hno : '\n' ∉ str! "    '" ++ name ++ str! "': " ++ v ++ str! "," := by
    simp only [List.mem_append, not_or]
    exact ⟨⟨⟨⟨by decide, fun h => (hn _ h).2.2 rfl⟩, by decide⟩, fun h => (hv.plain _ h).2.2.2.2.2 rfl⟩, by decide⟩
  have e : str! "    '" ++ name ++ str! "': " ++ v ++ str! ",\n" ++ rest = endLine (str! "    '" ++ name ++ str! "': " ++ v ++ str! ",") ++ rest := by
    simp [endLine]
  have hstrip : strip (dropComment false (str! "    '" ++ name ++ str! "': " ++ v ++ str! ",")) = '\'' :: name ++ str! "': " ++ v ++ str! "," := by
    have h1 : dropComment false (str! "    '" ++ name ++ str! "': " ++ v ++ str! ",") =
        str! "    " ++ ('\'' :: name ++ str! "': " ++ v ++ str! ",") ++ [] := by
      have e : str! "    '" ++ name ++ str! "': " ++ v ++ str! "," =
          str! "    " ++ ('\'' :: (name ++ ('\'' :: (str! ": " ++ (v ++ (str! "," ++ [])))))) := by simp
      rw [e, dropComment_plain (by decide), dropComment_quote, dropComment_plain (fun c hc => ⟨(hn c hc).1, (hn c hc).2.1⟩),
        dropComment_quote, dropComment_plain (by decide), dropComment_plain (fun c hc => ⟨(hv.plain c hc).1, (hv.plain c hc).2.1⟩),
        Bool.not_not, dropComment_plain (by decide), dropComment]
      simp
    rw [h1]
    refine strip_pad (by decide) (by simp) ⟨?_, ?_⟩
    · intro c hc; simp at hc; subst hc; decide
    · intro c hc
      rw [show (str! "," : Str) = [','] from rfl, List.getLast?_concat] at hc
      cases hc; decide
  rw [e, splitOn_endLine hno, readItems, hstrip, if_neg (by simp), if_neg (by simp), readItem_line hn hv]
  dsimp only
  rw [hv.value]

/-- **C78** The text of a dictionary of numbers is an assignment that gives back the name, the keys in order, and the number
of every key. -/
theorem C78_dict {K : Type} (num : Str → Option K) (name : Str) (d : Dict Str Str) (x : Str → K) (hname : ∀ c ∈ name, c ≠ ' ' ∧ c ≠ '\n')
    (hk : ∀ k ∈ keys d, ∀ c ∈ k, NameChar c) (hv : ∀ k v, get? d k = some v → Numeral num v (x k)) :
    ∃ s, dictString name d = .ok s ∧ readDictText num s = .ok (name, (sortedSet (keys d)).map fun k => (k, x k)) := by
  have hget : ∀ k ∈ sortedSet (keys d), ∃ v, get? d k = some v := by
    intro k hkm
    exact Option.isSome_iff_exists.mp (get?_isSome.mpr (mem_sortedSet.mp hkm))
  have key : ∀ l : List Str, (∀ k ∈ l, k ∈ sortedSet (keys d)) → ∃ data : List Str,
      (l.mapM fun key => do
        let v ← dictGet d key
        pure (str! "    '" ++ key ++ str! "': " ++ v ++ str! ",\n") : Py (List Str)) = .ok data ∧
      ∀ (e : Dict Str K) (rest : Str), readItems num (splitOn '\n' (data.flatten ++ rest)) e =
        readItems num (splitOn '\n' rest) (l.foldl (fun e k => e.set k (x k)) e) := by
    intro l
    induction l with
    | nil => intro _; exact ⟨[], rfl, fun e rest => by simp⟩
    | cons k l ih =>
      intro hl
      obtain ⟨v, hgv⟩ := hget k (hl k (by simp))
      obtain ⟨data, hd, hr⟩ := ih (fun k' hk' => hl k' (by simp [hk']))
      refine ⟨(str! "    '" ++ k ++ str! "': " ++ v ++ str! ",\n") :: data, ?_, ?_⟩
      · rw [List.mapM_cons, hd]
        have : dictGet d k = .ok v := by unfold dictGet; rw [hgv]
        rw [this]
        rfl
      · intro e rest
        have hkm : k ∈ keys d := mem_sortedSet.mp (hl k (by simp))
        rw [List.flatten_cons, List.append_assoc, readItems_plain (hk k hkm) (hv k v hgv), hr, List.foldl_cons]
  obtain ⟨data, hd, hr⟩ := key (sortedSet (keys d)) (fun _ h => h)
  refine ⟨name ++ str! " = {\n" ++ data.flatten ++ str! "}\n\n", by unfold dictString; rw [hd]; rfl, ?_⟩
  have e : name ++ str! " = {\n" ++ data.flatten ++ str! "}\n\n" = endLine (name ++ ' ' :: str! "= {") ++ (data.flatten ++ str! "}\n\n") := by
    simp [endLine]
  unfold readDictText
  rw [e, splitOn_endLine (by
    simp only [List.mem_append, not_or]
    exact ⟨fun h => (hname _ h).2 rfl, by decide⟩)]
  dsimp only
  rw [upTo_append (fun h => (hname _ h).1 rfl)]
  dsimp only
  rw [if_pos rfl, hr]
  have hend : ∀ e : Dict Str K, readItems num (splitOn '\n' (str! "}\n\n")) e = .ok e := by
    intro e
    rw [show splitOn '\n' (str! "}\n\n") = [str! "}", [], []] by decide, readItems]
    rw [if_neg (by decide), if_pos (by decide), if_pos (by decide)]
  rw [hend]
  have hfold : ∀ (l : List Str) (e : Dict Str K), l.Nodup → (∀ k ∈ l, k ∉ keys e) →
      l.foldl (fun e k => e.set k (x k)) e = e ++ l.map fun k => (k, x k) := by
    intro l
    induction l with
    | nil => intro e _ _; simp
    | cons k l ih =>
      intro e hnd hne
      rw [List.nodup_cons] at hnd
      have hset : ∀ e : Dict Str K, k ∉ keys e → e.set k (x k) = e ++ [(k, x k)] := by
        intro e
        induction e with
        | nil => intro _; rfl
        | cons p e ih =>
          intro h
          simp only [keys, List.map_cons, List.mem_cons, not_or] at h
          unfold Dict.set
          rw [if_neg (Ne.symm h.1), ih h.2]
          rfl
      rw [List.foldl_cons, hset e (hne k (by simp)), ih _ hnd.2]
      · simp
      · intro k' hk' h
        simp only [keys, List.map_append, List.map_cons, List.map_nil, List.mem_append, List.mem_singleton] at h
        rcases h with h | rfl
        · exact hne k' (by simp [hk']) h
        · exact hnd.1 hk'
  rw [hfold _ _ (sorted_sortedSet _).nodup (by simp [keys])]
  rfl

/-! ### Concrete texts -/

/-- Numbers, a tuple and a string. -/
def exItems : List TItem := [.tok (str! "1.5"), .tok (str! "-2"), .nested (str! "(1, [2, 3])"), .quoted (str! "CO_s"), .tok (str! "3e-05")]

example : listString (str! "times_0") exItems 2 = .ok (str! "times_0 = [\n    1.5, -2, \n    (1, [2, 3]),'CO_s', \n    3e-05, \n]\n\n") := by decide +kernel

example : (listString (str! "times_0") exItems 2).toOption.bind readListText = some (str! "times_0", exItems) := by decide +kernel

example : ∀ t ∈ exItems, t.fine := by
  intro t ht
  simp only [exItems, List.mem_cons, List.not_mem_nil, or_false] at ht
  rcases ht with rfl | rfl | rfl | rfl | rfl
  · exact ⟨by decide, by decide⟩
  · exact ⟨by decide, by decide⟩
  · refine ⟨'(', str! "1, [2, 3]", ')', rfl, .inl rfl, .inl rfl, ?_⟩
    refine .char _ _ (by decide) (by decide) (by decide) (by decide) (.char _ _ (by decide) (by decide) (by decide) (by decide)
      (.char _ _ (by decide) (by decide) (by decide) (by decide) ?_))
    refine .group '[' ']' (str! "2, 3") [] (.inr rfl) (.inr rfl) ?_ .nil
    exact .char _ _ (by decide) (by decide) (by decide) (by decide) (.char _ _ (by decide) (by decide) (by decide) (by decide)
      (.char _ _ (by decide) (by decide) (by decide) (by decide) (.char _ _ (by decide) (by decide) (by decide) (by decide) .nil)))
  · show ∀ c ∈ str! "CO_s", c ≠ '\'' ∧ c ≠ '\\' ∧ c ≠ '\n'
    decide
  · exact ⟨by decide, by decide⟩

example : (dictString (str! "rates") [(str! "B_s -> C_s", str! "1.25"), (str! "A_s -> B_s", str! "0.0")]).toOption.bind
    (fun s => (readDictText exNum s).toOption) = some (str! "rates", [(str! "A_s -> B_s", 0), (str! "B_s -> C_s", 5/4)]) := by decide +kernel

/-- **C78** (refuted) A string that contains a quote does not come back. -/
theorem C78_quote_refuted : ∃ s, listString (str! "a") [.quoted (str! "O's")] 5 = .ok s ∧ readListText s = none :=
  ⟨_, rfl, by decide +kernel⟩

/-! ### The theorems at these cases -/

example := C78_list_partial (str! "times_0") [.tok (str! "1.5"), .quoted (str! "CO_s")] 2 (by decide) (by decide) (by
  intro t ht
  simp only [List.mem_cons, List.not_mem_nil, or_false] at ht
  rcases ht with rfl | rfl
  · exact ⟨by decide, by decide⟩
  · show ∀ c ∈ str! "CO_s", c ≠ '\'' ∧ c ≠ '\\' ∧ c ≠ '\n'
    decide)

end Verif
