import Verif.Model.DataFile
import Verif.Lemmas.Dict
import Verif.Lemmas.Py
/- Lemmas about data files. -/
namespace Verif
open Dict
variable {α : Type}

theorem execAll_append (env : Vars α) (a b : List (Stmt α)) :
    execAll env (a ++ b) = execAll env a >>= fun e => execAll e b := by
  induction a generalizing env with
  | nil => rfl
  | cons s a ih =>
    rw [List.cons_append]
    show (execStmt env s >>= fun e => execAll e (a ++ b)) = (execStmt env s >>= fun e => execAll e a) >>= _
    cases execStmt env s with
    | error e => rfl
    | ok e => exact ih e

/-- Entries that are their own value. -/
def Selfish (l : List (Elem α)) : Prop := ∀ e ∈ l, evalElem e = .ok e

theorem mapM_selfish {l : List (Elem α)} (h : Selfish l) : l.mapM evalElem = .ok l := by
  induction l with
  | nil => rfl
  | cons a l ih =>
    rw [List.mapM_cons, h a (by simp), ih fun e he => h e (by simp [he])]
    rfl

theorem selfish_num {β : Type} (f : β → α) (l : List β) : Selfish (l.map fun r => .num (f r)) := by
  intro e he; obtain ⟨x, -, rfl⟩ := List.mem_map.mp he; rfl

theorem selfish_nums {β : Type} (f : β → List α) (l : List β) : Selfish (l.map fun r => .nums (f r)) := by
  intro e he; obtain ⟨x, -, rfl⟩ := List.mem_map.mp he; rfl

/-- Text without quotes, escapes and line breaks. -/
def PlainText (s : Str) : Prop := ∀ c ∈ s, c ≠ '\'' ∧ c ≠ '\\' ∧ c ≠ '\n'

theorem readLit_plain {s : Str} (h : PlainText s) : readLit true (s ++ ['\'']) = some s := by
  induction s with
  | nil => rfl
  | cons c s ih =>
    obtain ⟨h1, h2, h3⟩ := h c (by simp)
    have e : readLit true (c :: (s ++ ['\''])) = (readLit true (s ++ ['\''])).map (c :: ·) := by
      simp [readLit, h1, h2, h3]
    rw [List.cons_append, e, ih fun x hx => h x (by simp [hx])]
    rfl

theorem readStr_plain {s : Str} (h : PlainText s) : readStr s = some s := by
  show readLit false ('\'' :: (s ++ ['\''])) = _
  have e : ∀ r, readLit false ('\'' :: r) = readLit true r := by intro r; simp [readLit]
  rw [e, readLit_plain h]

theorem selfish_str {l : List Str} (h : ∀ s ∈ l, PlainText s) : Selfish (α := α) (l.map .str) := by
  intro e he
  obtain ⟨s, hs, rfl⟩ := List.mem_map.mp he
  show (match readStr s with | some t => .ok (.str t) | none => .error .SyntaxError : Py (Elem α)) = _
  rw [readStr_plain (h s hs)]

theorem badSyntax_selfish {v : Str} {l : List (Elem α)} (h : Selfish l) : badSyntax (.assign v l) = false := by
  show l.any _ = false
  rw [List.any_eq_false]
  intro e he
  have := h e he
  cases e with
  | num a => simp
  | nums a => simp
  | str s =>
    show ¬ (readStr s).isNone = true
    cases hs : readStr s with
    | some t => simp
    | none =>
      exfalso
      have e1 : evalElem (.str s : Elem α) = .error .SyntaxError := by
        show (match readStr s with | some t => .ok (.str t) | none => .error .SyntaxError : Py (Elem α)) = _
        rw [hs]
      rw [e1] at this; cases this

/-! ### Assignments and extensions -/

theorem exec_assign {env : Vars α} {v : Str} {l : List (Elem α)} (h : Selfish l) :
    execStmt env (.assign v l) = .ok (env.set v l) := by
  show (l.mapM evalElem >>= fun vals => pure (env.set v vals)) = _
  rw [mapM_selfish h]; rfl

theorem chunk_ne (name : Str) (k : Nat) : chunkVar name k ≠ name := by
  intro h
  have := congrArg List.length h
  simp [chunkVar] at this

/-- An extension appends to its variable and touches nothing but its own chunk variable. -/
theorem exec_extendBy {env : Vars α} {name : Str} {k : Nat} {l old : List (Elem α)} (hl : Selfish l)
    (ho : get? env name = some old) :
    ∃ env', execAll env (extendBy name k l) = .ok env' ∧ get? env' name = some (old ++ l) ∧
      ∀ v, v ≠ name → v ≠ chunkVar name k → get? env' v = get? env v := by
  refine ⟨(env.set (chunkVar name k) l).set name (old ++ l), ?_, ?_, ?_⟩
  · show (execStmt env (.assign (chunkVar name k) l) >>= fun e => execStmt e (.extend name (chunkVar name k)) >>= fun e => execAll e []) = _
    rw [exec_assign hl]
    show ((varGet (env.set (chunkVar name k) l) name >>= fun a => varGet (env.set (chunkVar name k) l) (chunkVar name k) >>= fun b =>
      pure ((env.set (chunkVar name k) l).set name (a ++ b))) >>= fun e => execAll e []) = _
    have h1 : varGet (env.set (chunkVar name k) l) name = .ok old := by
      unfold varGet; rw [get?_set, if_neg (chunk_ne name k), ho]
    have h2 : varGet (env.set (chunkVar name k) l) (chunkVar name k) = .ok l := by
      unfold varGet; rw [get?_set, if_pos rfl]
    rw [h1]
    show ((varGet (env.set (chunkVar name k) l) (chunkVar name k) >>= fun b =>
      pure ((env.set (chunkVar name k) l).set name (old ++ b))) >>= fun e => execAll e []) = _
    rw [h2]; rfl
  · rw [get?_set, if_pos rfl]
  · intro v h1 h2
    rw [get?_set, if_neg (fun h => h1 h.symm), get?_set, if_neg (fun h => h2 h.symm)]

/-! ### Columns -/

theorem zipStar_length {n : Nat} {rows : List (List α)} (h : rows ≠ []) (hr : ∀ r ∈ rows, r.length = n) :
    (zipStar rows).length = n := by
  induction rows with
  | nil => exact absurd rfl h
  | cons r rs ih =>
    cases rs with
    | nil => simp [zipStar, hr r (by simp)]
    | cons r' rs =>
      show (List.zipWith (· :: ·) r (zipStar (r' :: rs))).length = n
      rw [List.length_zipWith, ih (by simp) (fun x hx => hr x (by simp [List.mem_cons.mp hx])), hr r (by simp)]
      simp

theorem zipStar_columns {n : Nat} {rows : List (List α)} (h : rows ≠ []) (hr : ∀ r ∈ rows, r.length = n) :
    zipStar rows = (List.range n).map fun i => rows.filterMap (·[i]?) := by
  induction rows with
  | nil => exact absurd rfl h
  | cons r rs ih =>
    have h0 := hr r (by simp)
    cases rs with
    | nil =>
      apply List.ext_getElem
      · simp [zipStar, h0]
      · intro i h1 h2
        have hi : i < r.length := by simpa [zipStar] using h1
        simp [zipStar, List.getElem?_eq_getElem hi]
    | cons r' rs =>
      have ih' := ih (by simp) (fun x hx => hr x (by simp [List.mem_cons.mp hx]))
      show List.zipWith (· :: ·) r (zipStar (r' :: rs)) = _
      rw [ih']
      apply List.ext_getElem
      · simp [h0]
      · intro i h1 h2
        have hi : i < r.length := by rw [List.length_zipWith] at h1; omega
        rw [List.getElem_zipWith, List.getElem_map, List.getElem_map, List.getElem_range]
        simp only [List.filterMap_cons, List.getElem?_eq_getElem hi]

/-- Extending the first `m` inner lists. -/
theorem exec_extendAt {env : Vars α} {cov src : Str} {cols ccols : List (List α)} (hne : src ≠ cov)
    (hc : get? env cov = some (cols.map .nums)) (hs : get? env src = some (ccols.map .nums))
    (m : Nat) (h1 : m ≤ cols.length) (h2 : m ≤ ccols.length) :
    ∃ env', execAll env ((List.range m).map fun i => .extendAt cov i src i) = .ok env' ∧
      get? env' cov = some ((List.zipWith (· ++ ·) (cols.take m) (ccols.take m) ++ cols.drop m).map .nums) ∧
      ∀ v, v ≠ cov → get? env' v = get? env v := by
  induction m with
  | zero => exact ⟨env, rfl, by simpa using hc, fun _ _ => rfl⟩
  | succ m ih =>
    obtain ⟨env1, e1, e2, e3⟩ := ih (by omega) (by omega)
    have hl : (List.zipWith (· ++ ·) (cols.take m) (ccols.take m)).length = m := by simp; omega
    have hm1 : m < cols.length := by omega
    have hm2 : m < ccols.length := by omega
    have hd : cols.drop m = cols[m] :: cols.drop (m + 1) := List.drop_eq_getElem_cons hm1
    set A := List.zipWith (· ++ ·) (cols.take m) (ccols.take m) with hA
    have hg1 : numsAt ((A ++ cols.drop m).map (Elem.nums (α := α))) m = .ok cols[m] := by
      unfold numsAt
      rw [hd, List.map_append, List.getElem?_append_right (by simp [hl])]
      simp [hl, List.getElem?_eq_getElem hm1]
    have hg2 : numsAt (ccols.map (Elem.nums (α := α))) m = .ok ccols[m] := by
      unfold numsAt
      simp [List.getElem?_eq_getElem hm2]
    have hset : ((A ++ cols.drop m).map (Elem.nums (α := α))).set m (.nums (cols[m] ++ ccols[m])) =
        (List.zipWith (· ++ ·) (cols.take (m + 1)) (ccols.take (m + 1)) ++ cols.drop (m + 1)).map .nums := by
      have ht : List.zipWith (· ++ ·) (cols.take (m + 1)) (ccols.take (m + 1)) = A ++ [cols[m] ++ ccols[m]] := by
        rw [List.take_succ_eq_append_getElem hm1, List.take_succ_eq_append_getElem hm2,
          List.zipWith_append (by simp; omega)]
        rfl
      rw [ht, hd, List.map_append, List.set_append_right _ _ (by simp [hl]), List.length_map, hl, Nat.sub_self,
        List.map_cons, List.set_cons_zero]
      simp only [List.map_append, List.map_cons, List.append_assoc, List.singleton_append]
    refine ⟨env1.set cov ((List.zipWith (· ++ ·) (cols.take (m + 1)) (ccols.take (m + 1)) ++ cols.drop (m + 1)).map .nums), ?_, ?_, ?_⟩
    · rw [List.range_succ, List.map_append, execAll_append, e1]
      show (execStmt env1 (.extendAt cov m src m) >>= fun e => execAll e []) = _
      have hv1 : varGet env1 cov = .ok ((A ++ cols.drop m).map .nums) := by unfold varGet; rw [e2]
      have hv2 : varGet env1 src = .ok (ccols.map .nums) := by unfold varGet; rw [e3 src hne, hs]
      show ((varGet env1 cov >>= fun a => numsAt a m >>= fun x => varGet env1 src >>= fun b => numsAt b m >>= fun y =>
        pure (env1.set cov (a.set m (.nums (x ++ y))))) >>= fun e => execAll e []) = _
      rw [hv1]
      show ((numsAt ((A ++ cols.drop m).map (Elem.nums (α := α))) m >>= fun x => varGet env1 src >>= fun b => numsAt b m >>= fun y =>
        pure (env1.set cov (((A ++ cols.drop m).map (Elem.nums (α := α))).set m (.nums (x ++ y))))) >>= fun e => execAll e []) = _
      rw [hg1]
      show ((varGet env1 src >>= fun b => numsAt b m >>= fun y =>
        pure (env1.set cov (((A ++ cols.drop m).map (Elem.nums (α := α))).set m (.nums (cols[m] ++ y))))) >>= fun e => execAll e []) = _
      rw [hv2]
      show ((numsAt (ccols.map (Elem.nums (α := α))) m >>= fun y =>
        pure (env1.set cov (((A ++ cols.drop m).map (Elem.nums (α := α))).set m (.nums (cols[m] ++ y))))) >>= fun e => execAll e []) = _
      rw [hg2]
      show Except.ok (env1.set cov (((A ++ cols.drop m).map (Elem.nums (α := α))).set m (.nums (cols[m] ++ ccols[m])))) = _
      rw [hset]
    · rw [get?_set, if_pos rfl]
    · intro v hv
      rw [get?_set, if_neg (fun h => hv h.symm), e3 v hv]

end Verif
