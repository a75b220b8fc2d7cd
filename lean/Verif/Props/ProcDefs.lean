import Verif.Model.ProcDefs
import Verif.Props.CoordsUnion
import Verif.Props.Templates
/-
Definitions of processes from groups of coordinates (C109).
-/
set_option linter.unusedSectionVars false
namespace Verif
open Dict

section
variable {K : Type} [Field K] [LinearOrder K] [IsStrictOrderedRing K]

/-! ### What a group holds: a small specification -/

/-- The group has these coordinates, each once and on the grid, and the elements that belong to them. -/
structure Holds (Grid : List K → Prop) (s : CStore K) (g : Group) (l : List (List K × Str)) : Prop where
  coords : s.coords g = .ok (l.map (·.1))
  elems : s.elems g = .ok (l.map (·.2))
  nodup : (l.map (·.1)).Nodup
  grid : ∀ p ∈ l, Grid p.1

/-- What stands at `c` when the lists are put one over the other, the first on top. -/
def stack (ls : List (List (List K × Str))) (c : List K) : Option Str := ls.foldr (fun l r => over (get? l c) r) none

/-- The store has all groups of the other one, unchanged. -/
def Grows (s s' : CStore K) : Prop := (∀ g l, s.coords g = .ok l → s'.coords g = .ok l) ∧ (∀ g l, s.elems g = .ok l → s'.elems g = .ok l)

theorem Grows.refl (s : CStore K) : Grows s s := ⟨fun _ _ h => h, fun _ _ h => h⟩

theorem Grows.trans {a b c : CStore K} (h1 : Grows a b) (h2 : Grows b c) : Grows a c :=
  ⟨fun g l h => h2.1 g l (h1.1 g l h), fun g l h => h2.2 g l (h1.2 g l h)⟩

theorem Holds.extend {Grid : List K → Prop} {s s' : CStore K} {g : Group} {l : List (List K × Str)} (h : Holds Grid s g l) (he : Grows s s') :
    Holds Grid s' g l := ⟨he.1 _ _ h.coords, he.2 _ _ h.elems, h.nodup, h.grid⟩

theorem zip_unzip (l : List (List K × Str)) : (l.map (·.1)).zip (l.map (·.2)) = l := by
  induction l with
  | nil => rfl
  | cons p l ih => simp [ih]

theorem over_none (x : Option Str) : over x none = x := by cases x <;> rfl

theorem holds_add {Grid : List K → Prop} (hg : ∀ c d, Grid c → Grid d → Near c d → c = d) {s : CStore K} {a b : Group}
    {l m : List (List K × Str)} (h1 : Holds Grid s a l) (h2 : Holds Grid s b m) :
    ∃ s' g r, addG s a b = (s', .ok g) ∧ Holds Grid s' g r ∧ (∀ c, get? r c = over (get? l c) (get? m c)) ∧ Grows s s' := by
  obtain ⟨s', g, cs, es, q1, q2, q3, q4, q5, q6, q7, q8, q9⟩ := C46_union s a b _ _ _ _ h1.coords h1.elems h2.coords h2.elems (by simp) (by simp)
    h1.nodup h2.nodup (by
      intro c hc d hd
      obtain ⟨p, hp, rfl⟩ := List.mem_map.mp hc
      obtain ⟨q, hq, rfl⟩ := List.mem_map.mp hd
      exact hg _ _ (h2.grid p hp) (h1.grid q hq))
  have e1 : (cs.zip es).map (·.1) = cs := List.map_fst_zip (by omega)
  have e2 : (cs.zip es).map (·.2) = es := List.map_snd_zip (by omega)
  refine ⟨s', g, cs.zip es, q1, ⟨by rw [e1]; exact q2, by rw [e2]; exact q3, by rw [e1]; exact q4, ?_⟩, ?_, q8, q9⟩
  · intro p hp
    have hm : p.1 ∈ cs := e1 ▸ List.mem_map.mpr ⟨p, hp, rfl⟩
    rcases (q7 p.1).mp hm with hc | hc
    · obtain ⟨q, hq, e⟩ := List.mem_map.mp hc
      rw [← e]; exact h1.grid q hq
    · obtain ⟨q, hq, e⟩ := List.mem_map.mp hc
      rw [← e]; exact h2.grid q hq
  · intro c
    rw [q6 c, zip_unzip, zip_unzip]

theorem holds_reduce {Grid : List K → Prop} (hg : ∀ c d, Grid c → Grid d → Near c d → c = d) :
    ∀ (gs : List Group) (ls : List (List (List K × Str))) (s : CStore K) (g : Group) (l : List (List K × Str)), Holds Grid s g l →
      List.Forall₂ (Holds Grid s) gs ls →
      ∃ s' m r, reduceAdd s g gs = (s', .ok m) ∧ Holds Grid s' m r ∧ (∀ c, get? r c = stack (l :: ls) c) ∧ Grows s s' := by
  intro gs
  induction gs with
  | nil =>
    intro ls s g l h hf
    cases hf
    exact ⟨s, g, l, rfl, h, fun c => (over_none _).symm, Grows.refl s⟩
  | cons b gs ih =>
    intro ls s g l h hf
    cases hf with
    | cons hb hrest =>
      rename_i m ls
      obtain ⟨s1, g1, r1, a1, a2, a3, a4⟩ := holds_add hg h hb
      have hrest' : List.Forall₂ (Holds Grid s1) gs ls := hrest.imp (fun _ _ x => x.extend a4)
      obtain ⟨s2, g2, r2, b1, b2, b3, b4⟩ := ih ls s1 g1 r1 a2 hrest'
      refine ⟨s2, g2, r2, ?_, b2, ?_, a4.trans b4⟩
      · rw [reduceAdd, a1]; exact b1
      · intro c
        rw [b3 c]
        unfold stack
        rw [List.foldr_cons, List.foldr_cons, List.foldr_cons, a3 c, over_assoc]

theorem get?_translate {l : List (List K × Str)} {v c : List K} (h3 : ∀ p ∈ l, p.1.length = 3) (hv : v.length = 3) (hc : c.length = 3) :
    get? (l.map fun p => (translate v p.1, p.2)) c = get? l (List.zipWith (· - ·) c v) := by
  have three : ∀ l : List K, l.length = 3 → ∃ a b c, l = [a, b, c] := by
    intro l hl
    match l, hl with
    | [a, b, c], _ => exact ⟨a, b, c, rfl⟩
  obtain ⟨v1, v2, v3, rfl⟩ := three v hv
  obtain ⟨c1, c2, c3, rfl⟩ := three c hc
  induction l with
  | nil => rfl
  | cons p l ih =>
    obtain ⟨d, e⟩ := p
    obtain ⟨d1, d2, d3, hd⟩ := three d (h3 (d, e) (by simp))
    subst hd
    have ih' := ih (fun q hq => h3 q (by simp [hq]))
    rw [List.map_cons, get?, get?, ih']
    congr 1
    simp only [translate, List.zipWith_cons_cons, List.zipWith_nil_right, List.cons.injEq, and_true, eq_iff_iff]
    constructor
    · rintro ⟨h1, h2, h3⟩
      exact ⟨by rw [← h1]; ring, by rw [← h2]; ring, by rw [← h3]; ring⟩
    · rintro ⟨h1, h2, h3⟩
      exact ⟨by rw [h1]; ring, by rw [h2]; ring, by rw [h3]; ring⟩

theorem translate_inj {v c d : List K} (hv : v.length = 3) (hc : c.length = 3) (hd : d.length = 3) (h : translate v c = translate v d) : c = d := by
  match v, hv, c, hc, d, hd with
  | [v1, v2, v3], _, [c1, c2, c3], _, [d1, d2, d3], _ =>
    simp only [translate, List.zipWith_cons_cons, List.zipWith_nil_right, List.cons.injEq, and_true, add_left_inj] at h
    simp [h.1, h.2.1, h.2.2]

theorem holds_move {Grid : List K → Prop} {s : CStore K} {g : Group} {l : List (List K × Str)} {v : List K} (h : Holds Grid s g l) (hne : l ≠ [])
    (h3 : ∀ p ∈ l, p.1.length = 3) (hv : v.length = 3) (hgrid : ∀ p ∈ l, Grid (translate v p.1)) :
    ∃ s' m, moveG s g (some v) = (s', .ok m) ∧ Holds Grid s' m (l.map fun p => (translate v p.1, p.2)) ∧ Grows s s' := by
  obtain ⟨s', m, q1, q2, q3, q4, q5⟩ := C45_move_partial s g _ _ v h.coords h.elems (by simp) (by simpa using hne)
    (by intro c hc; obtain ⟨p, hp, rfl⟩ := List.mem_map.mp hc; exact h3 p hp) hv
  refine ⟨s', m, q1, ⟨?_, ?_, ?_, ?_⟩, q4, q5⟩
  · rw [q2]; simp
  · rw [q3]; simp
  · have e : (l.map fun p => (translate v p.1, p.2)).map (·.1) = (l.map (·.1)).map (translate v) := by simp
    rw [e]
    refine List.Nodup.map_on ?_ h.nodup
    intro a ha b hb hab
    obtain ⟨p, hp, rfl⟩ := List.mem_map.mp ha
    obtain ⟨q, hq, rfl⟩ := List.mem_map.mp hb
    exact translate_inj hv (h3 p hp) (h3 q hq) hab
  · intro p hp
    obtain ⟨q, hq, rfl⟩ := List.mem_map.mp hp
    exact hgrid q hq

/-! ## C109 -/

/-- What a definition must say: the reaction, every place once, before it what stands there when the groups and the moved group are
put one over the other, after it nothing. The moved group has at `c` what the group had at `c` minus the way from its origin. -/
structure Defines (rxn : Str) (groups : List (List (List K × Str))) (origin : List (List K × Str)) (ori coord : List K) (d : SiteProcess K) : Prop where
  reaction : d.reaction = rxn
  nodup : d.coords.Nodup
  length : d.before.length = d.coords.length
  after : d.after.length = d.coords.length ∧ ∀ e ∈ d.after, e = str! "V"
  before : ∀ c, c.length = 3 → get? (d.coords.zip d.before) c =
    over (stack groups c) (get? origin (List.zipWith (· - ·) c (List.zipWith (· - ·) coord ori)))

/-- For one group or more, places of three numbers, and coordinates of which none are near without being the same: the definition says what it must, and all groups
stay as they were. Missing: places given by other than three numbers (`C109_four_refuted`), two elements at one place (`C109_conflict_refuted`),
no groups (`C109_no_groups_refuted`). -/
theorem C109_definition_partial (Grid : List K → Prop) (hg : ∀ c d, Grid c → Grid d → Near c d → c = d) (s : CStore K) (origin : Group)
    (o : List (List K × Str)) (ori coord : List K) (rxn : Str) (gs : List Group) (ls : List (List (List K × Str))) (hne : gs ≠ [])
    (ho : Holds Grid s origin o) (hone : o ≠ []) (h3 : ∀ p ∈ o, p.1.length = 3) (hc3 : coord.length = 3) (ho3 : ori.length = 3)
    (hmove : ∀ p ∈ o, Grid (translate (List.zipWith (· - ·) coord ori) p.1)) (hgs : List.Forall₂ (Holds Grid s) gs ls) :
    ∃ s' d, generateProcess s origin ori coord rxn gs = (s', .ok d) ∧ Defines rxn ls o ori coord d ∧ Grows s s' := by
  have hv : (List.zipWith (· - ·) coord ori).length = 3 := by simp [hc3, ho3]
  cases hgs with
  | nil => exact absurd rfl hne
  | cons hb hrest =>
    rename_i b l gs ls
    obtain ⟨s1, m1, r1, a1, a2, a3, a4⟩ := holds_reduce hg gs ls s b l hb hrest
    obtain ⟨s2, m2, b1, b2, b3⟩ := holds_move (ho.extend a4) hone h3 hv hmove
    obtain ⟨s3, m3, r3, c1, c2, c3, c4⟩ := holds_add hg (a2.extend b3) b2
    refine ⟨s3, ⟨rxn, r3.map (·.1), r3.map (·.2), List.replicate (r3.map (·.2)).length (str! "V")⟩, ?_, ⟨rfl, c2.nodup, by simp, ⟨by simp, ?_⟩, ?_⟩, a4.trans (b3.trans c4)⟩
    · unfold generateProcess
      dsimp only
      rw [a1]
      dsimp only
      rw [b1]
      dsimp only
      rw [c1]
      dsimp only
      rw [c2.coords, c2.elems]
    · intro e he
      exact List.eq_of_mem_replicate he
    · intro c hc
      dsimp only
      rw [zip_unzip, c3 c, a3 c, get?_translate h3 hv hc]

/-- All definitions: one for every list of groups and every place, in order. -/
theorem C109_all_partial (Grid : List K → Prop) (hg : ∀ c d, Grid c → Grid d → Near c d → c = d) (origins : List Group)
    (os : List (List (List K × Str))) (oris : List (List K)) (rxn : Str) (places : List (List K × Nat))
    (hne : ∀ o ∈ os, o ≠ []) (h3 : ∀ o ∈ os, ∀ p ∈ o, p.1.length = 3) (hl : ∀ p ∈ places, p.1.length = 3) (hl' : ∀ o ∈ oris, o.length = 3)
    (hidx : ∀ p ∈ places, p.2 < os.length ∧ p.2 < oris.length)
    (hmove : ∀ p ∈ places, ∀ o ori, os[p.2]? = some o → oris[p.2]? = some ori → ∀ q ∈ o, Grid (translate (List.zipWith (· - ·) p.1 ori) q.1)) :
    ∀ (gss : List (List Group)) (lss : List (List (List (List K × Str)))) (s : CStore K), (∀ gs ∈ gss, gs ≠ []) →
      List.Forall₂ (Holds Grid s) origins os → List.Forall₂ (List.Forall₂ (Holds Grid s)) gss lss →
      ∃ s' ds, allProcesses origins oris rxn places s gss = (s', .ok ds) ∧ Grows s s' ∧
        List.Forall₂ (fun (x : List (List (List K × Str)) × List K × Nat) d => ∃ o ori, os[x.2.2]? = some o ∧ oris[x.2.2]? = some ori ∧
          Defines rxn x.1 o ori x.2.1 d) (lss.flatMap fun ls => places.map fun p => (ls, p)) ds := by
  have inner : ∀ (gs : List Group) (ls : List (List (List K × Str))), gs ≠ [] → ∀ (ps : List (List K × Nat)) (s : CStore K), (∀ p ∈ ps, p ∈ places) →
      List.Forall₂ (Holds Grid s) origins os → List.Forall₂ (Holds Grid s) gs ls →
      ∃ s' ds, processesOfGroup origins oris rxn gs s ps = (s', .ok ds) ∧ Grows s s' ∧
        List.Forall₂ (fun (x : List (List (List K × Str)) × List K × Nat) d => ∃ o ori, os[x.2.2]? = some o ∧ oris[x.2.2]? = some ori ∧
          Defines rxn x.1 o ori x.2.1 d) (ps.map fun p => (ls, p)) ds := by
    intro gs ls hgne ps
    induction ps with
    | nil => intro s _ _ _; exact ⟨s, [], rfl, Grows.refl s, List.Forall₂.nil⟩
    | cons p ps ih =>
      intro s hps hos hgs
      obtain ⟨coord, idx⟩ := p
      have hp : (coord, idx) ∈ places := hps _ (by simp)
      obtain ⟨i1, i2⟩ := hidx _ hp
      have i0 : idx < origins.length := by rw [hos.length_eq]; exact i1
      have e1 : origins[idx]? = some origins[idx] := List.getElem?_eq_getElem i0
      have e2 : os[idx]? = some os[idx] := List.getElem?_eq_getElem i1
      have e3 : oris[idx]? = some oris[idx] := List.getElem?_eq_getElem i2
      have hho : Holds Grid s origins[idx] os[idx] := List.Forall₂.get hos i0 i1
      obtain ⟨s1, d, a1, a2, a3⟩ := C109_definition_partial Grid hg s origins[idx] os[idx] oris[idx] coord rxn gs ls hgne hho
        (hne _ (List.getElem_mem i1)) (h3 _ (List.getElem_mem i1)) (hl _ hp) (hl' _ (List.getElem_mem i2)) (hmove _ hp _ _ e2 e3) hgs
      obtain ⟨s2, ds, b1, b2, b3⟩ := ih s1 (fun q hq => hps q (by simp [hq])) (hos.imp fun _ _ h => h.extend a3) (hgs.imp fun _ _ h => h.extend a3)
      refine ⟨s2, d :: ds, ?_, a3.trans b2, List.Forall₂.cons ⟨_, _, e2, e3, a2⟩ b3⟩
      unfold processesOfGroup pyIndex
      rw [e1, e3]
      dsimp only
      rw [a1]
      dsimp only
      rw [b1]
  intro gss
  induction gss with
  | nil =>
    intro lss s _ _ hf
    cases hf
    exact ⟨s, [], rfl, Grows.refl s, List.Forall₂.nil⟩
  | cons gs gss ih =>
    intro lss s hgne hos hf
    cases hf with
    | cons hgs hrest =>
      rename_i ls lss
      obtain ⟨s1, ds, a1, a2, a3⟩ := inner gs ls (hgne gs (by simp)) places s (fun _ h => h) hos hgs
      obtain ⟨s2, es, b1, b2, b3⟩ := ih lss s1 (fun g h => hgne g (by simp [h])) (hos.imp fun _ _ h => h.extend a2)
        (hrest.imp fun _ _ h => h.imp fun _ _ h => h.extend a2)
      refine ⟨s2, ds ++ es, ?_, a2.trans b2, ?_⟩
      · rw [allProcesses, a1]
        dsimp only
        rw [b1]
      · rw [List.flatMap_cons]
        exact List.rel_append a3 b3

end

/-! ### The groups of the example -/

/-- A group with an oxygen atom on a bridge, an empty bridge, and a group with a carbon monoxide molecule at a top site.
`examples/KMC/CO-Oxidation-Pt-100/10x10/superposition/NN-1/scripts/get_process_definitions.py` 46-60, shortened. -/
def exSites : List (List (List ℚ × Str)) :=
  [[([0, 0, 0], str! "V"), ([1 / 2, 0, 0], str! "O_s"), ([1, 0, 0], str! "V")],
   [([0, 0, 0], str! "V"), ([0, 1 / 2, 0], str! "V")],
   [([0, 0, 0], str! "C"), ([1 / 2, 0, 0], str! "V")]]

/-- The store with these groups. -/
def exSiteStore : CStore ℚ := ⟨exSites.map (·.map (·.1)), exSites.map (·.map (·.2))⟩

example : List.Forall₂ (Holds HalfGrid exSiteStore) [⟨0, 0⟩, ⟨1, 1⟩, ⟨2, 2⟩] exSites := by
  refine List.Forall₂.cons ⟨by decide +kernel, by decide +kernel, by decide +kernel, ?_⟩
    (List.Forall₂.cons ⟨by decide +kernel, by decide +kernel, by decide +kernel, ?_⟩
      (List.Forall₂.cons ⟨by decide +kernel, by decide +kernel, by decide +kernel, ?_⟩ List.Forall₂.nil))
  · intro p hp
    fin_cases hp
    · exact ⟨0, 0, 0, by norm_num⟩
    · exact ⟨1, 0, 0, by norm_num⟩
    · exact ⟨2, 0, 0, by norm_num⟩
  · intro p hp
    fin_cases hp
    · exact ⟨0, 0, 0, by norm_num⟩
    · exact ⟨0, 1, 0, by norm_num⟩
  · intro p hp
    fin_cases hp
    · exact ⟨0, 0, 0, by norm_num⟩
    · exact ⟨1, 0, 0, by norm_num⟩

/-- The molecule is put at the next top site. -/
example : (generateProcess exSiteStore ⟨2, 2⟩ [0, 0, 0] [1, 0, 0] (str! "r") [⟨0, 0⟩, ⟨1, 1⟩]).2 =
    .ok ⟨str! "r", [[0, 0, 0], [1 / 2, 0, 0], [1, 0, 0], [0, 1 / 2, 0], [3 / 2, 0, 0]],
      [str! "V", str! "O_s", str! "C", str! "V", str! "V"], [str! "V", str! "V", str! "V", str! "V", str! "V"]⟩ := by decide +kernel

/-- On the grid of halves moves by halves stay on the grid. -/
theorem halfGrid_translate {v c : List ℚ} (hv : HalfGrid v) (hc : HalfGrid c) : HalfGrid (translate v c) := by
  obtain ⟨i, j, k, rfl⟩ := hv
  obtain ⟨l, m, n, rfl⟩ := hc
  refine ⟨l + i, m + j, n + k, ?_⟩
  simp only [translate, List.zipWith_cons_cons, List.zipWith_nil_right]
  push_cast
  simp only [add_div]

/-- A place written with four numbers by mistake, as in `input_1.py` 9, is not rejected: the site below the plane is taken for the
one beside. -/
theorem C109_four_refuted :
    (generateProcess exSiteStore ⟨2, 2⟩ [0, 0, 0] [1, 0, -1, 0] (str! "r") [⟨0, 0⟩]).2 =
      .ok ⟨str! "r", [[0, 0, 0], [1 / 2, 0, 0], [1, 0, 0], [1, 0, -1], [3 / 2, 0, -1]],
        [str! "V", str! "O_s", str! "V", str! "C", str! "V"], [str! "V", str! "V", str! "V", str! "V", str! "V"]⟩ ∧
    (generateProcess exSiteStore ⟨2, 2⟩ [0, 0, 0] [1, -1, 0] (str! "r") [⟨0, 0⟩]).2 =
      .ok ⟨str! "r", [[0, 0, 0], [1 / 2, 0, 0], [1, 0, 0], [1, -1, 0], [3 / 2, -1, 0]],
        [str! "V", str! "O_s", str! "V", str! "C", str! "V"], [str! "V", str! "V", str! "V", str! "V", str! "V"]⟩ := by decide +kernel

/-- Two atoms at one place are not rejected: the molecule disappears from the definition. -/
theorem C109_conflict_refuted :
    (generateProcess exSiteStore ⟨2, 2⟩ [0, 0, 0] [1 / 2, 0, 0] (str! "r") [⟨0, 0⟩]).2 =
      .ok ⟨str! "r", [[0, 0, 0], [1 / 2, 0, 0], [1, 0, 0]], [str! "V", str! "O_s", str! "V"], [str! "V", str! "V", str! "V"]⟩ := by decide +kernel

/-- No groups raise. -/
theorem C109_no_groups_refuted {K : Type} [Field K] [LinearOrder K] (s : CStore K) (origin : Group) (ori coord : List K) (rxn : Str) :
    generateProcess s origin ori coord rxn [] = (s, .error .TypeError) := rfl

/-- The name of the output is the name of the input up to its only point. Missing: other names (`C109_name_refuted`). -/
theorem C109_name_partial (base ext : Str) (h : '.' ∉ base) : outFileName (base ++ '.' :: ext) = .ok (base ++ str! "_out.py") := by
  have : ∃ l, splitOn '.' (base ++ '.' :: ext) = base :: l := by
    induction base with
    | nil => exact ⟨_, rfl⟩
    | cons x base ih =>
      obtain ⟨l, hl⟩ := ih (fun hm => h (by simp [hm]))
      have hx : x ≠ '.' := fun e => h (by simp [e])
      refine ⟨l, ?_⟩
      rw [List.cons_append, splitOn, if_neg hx, hl]
  obtain ⟨l, hl⟩ := this
  unfold outFileName
  rw [hl]

example : outFileName (str! "input_1.py") = .ok (str! "input_1_out.py") := by decide

/-- Two inputs given with the directory overwrite the same output. -/
theorem C109_name_refuted : outFileName (str! "./input_1.py") = outFileName (str! "./input_2.py") := by decide

/-- The file has every definition once, in order, between the first and the last line. -/
theorem C109_file {α : Type} (show_ : α → Str) (ds : List α) :
    processFile show_ ds = str! "processes = [\n" ++ ds.flatMap (fun d => str! "\n" ++ show_ d ++ str! ",\n") ++ str! "\n]\n" := by
  unfold processFile
  congr 1
  have gen : ∀ (ds : List α) (acc : Str), ds.foldl (fun acc d => acc ++ (str! "\n" ++ show_ d ++ str! ",\n")) acc =
      acc ++ ds.flatMap (fun d => str! "\n" ++ show_ d ++ str! ",\n") := by
    intro ds
    induction ds with
    | nil => intro acc; simp
    | cons d ds ih => intro acc; rw [List.foldl_cons, ih, List.flatMap_cons, List.append_assoc]
  exact gen ds _

/-! ### The theorems at these cases -/

example := C109_name_partial (str! "input_1") (str! "py") (by decide)

end Verif
