import Verif.Model.KmcRun
import Verif.Props.Kmc
import Verif.Props.Checks
/-
C81: the life of a lattice model.
-/
namespace Verif
open Dict

set_option linter.unusedSectionVars false

variable {K : Type} {C : Type}

/-! ### Reading -/

/-- **C81** Processes, configuration and site map are read together or not at all; when they are read they are those of the
files. -/
theorem C81_reading (s : KmcSettings) (st : KmcState K C) (e : Py (Str → Py (K × K))) (pf : DataFile (List (ProcDict C))) (cf sf : DataFile (List Str)) :
    let r := st.parse s e pf cf sf
    (r.1.isOk ↔ e.isOk ∧ (∃ l, pf = .data l) ∧ (parseConfiguration s.lattice cf).isOk ∧ (constructSitesmap s.lattice sf).isOk) ∧
    (¬ r.1.isOk → r.2.dicts = st.dicts ∧ r.2.config = st.config ∧ r.2.sites = st.sites) ∧
    (r.1.isOk → (∃ l, pf = .data l ∧ r.2.dicts = some l) ∧ (∃ l, parseConfiguration s.lattice cf = .ok l ∧ r.2.config = some l) ∧
      (∃ l, constructSitesmap s.lattice sf = .ok l ∧ r.2.sites = some l) ∧ e = .ok r.2.rates) ∧
    r.2.calls = st.calls ∧ r.2.cache = st.cache ∧ r.2.mapping = st.mapping := by
  intro r
  show _ ∧ _
  cases e with
  | error x => exact ⟨by simp [r, KmcState.parse, Except.isOk, Except.toBool], fun _ => ⟨rfl, rfl, rfl⟩, fun h => (nomatch h), rfl, rfl, rfl⟩
  | ok rates =>
    cases pf with
    | missing =>
      refine ⟨?_, fun _ => ⟨rfl, rfl, rfl⟩, fun h => (nomatch h), rfl, rfl, rfl⟩
      exact ⟨fun h => (nomatch h), fun h => (nomatch h.2.1.choose_spec)⟩
    | without =>
      refine ⟨?_, fun _ => ⟨rfl, rfl, rfl⟩, fun h => (nomatch h), rfl, rfl, rfl⟩
      exact ⟨fun h => (nomatch h), fun h => (nomatch h.2.1.choose_spec)⟩
    | data l =>
      have hr : r = match (do let c ← parseConfiguration s.lattice cf; let m ← constructSitesmap s.lattice sf; pure (l, c, m) : Py _) with
          | .error e => ((.error e : Py Unit), { st with rates := rates })
          | .ok (p, c, m) => (.ok (), { st with rates := rates, dicts := some p, config := some c, sites := some m }) := rfl
      clear_value r
      subst hr
      cases h1 : parseConfiguration s.lattice cf with
      | error x =>
        refine ⟨?_, fun _ => ⟨rfl, rfl, rfl⟩, fun h => (nomatch h), rfl, rfl, rfl⟩
        exact ⟨fun h => (nomatch h), fun h => (nomatch h.2.2.1)⟩
      | ok c =>
        cases h2 : constructSitesmap s.lattice sf with
        | error x =>
          refine ⟨?_, fun _ => ⟨rfl, rfl, rfl⟩, fun h => (nomatch h), rfl, rfl, rfl⟩
          exact ⟨fun h => (nomatch h), fun h => (nomatch h.2.2.2)⟩
        | ok m =>
          refine ⟨?_, fun h => absurd rfl h, fun _ => ⟨⟨l, rfl, rfl⟩, ⟨c, rfl, rfl⟩, ⟨m, rfl, rfl⟩, rfl⟩, rfl, rfl, rfl⟩
          exact ⟨fun _ => ⟨rfl, ⟨l, rfl⟩, rfl, rfl⟩, fun _ => rfl⟩

/-! ### Control parameters -/

/-- **C81** The control parameters are the settings of the model: nine of them, five more with redistribution. -/
theorem C81_control (s : KmcSettings) (k : Str) : get? (controlParams s) k =
    if k = str! "time_limit" then some s.timeLimit else if k = str! "number_of_steps" then some s.nstep
    else if k = str! "dump_interval" then some s.dumpInterval else if k = str! "seed" then some s.seed
    else if k = str! "rng_type" then some s.generator else if k = str! "analysis_interval" then some s.analysisInterval
    else if k = str! "start_time" then some s.startTime else if k = str! "extra_traj" then some s.extraTraj
    else if k = str! "do_redistribution" then some (.bool s.redistribution)
    else if s.redistribution = false then none
    else if k = str! "redistribution_interval" then some s.redistInterval else if k = str! "fast_species" then some s.fastSpecies
    else if k = str! "nsplits" then some s.nsplits else if k = str! "distributor_type" then some s.distributor
    else if k = str! "empty_element" then some (.str s.lattice.emptyType) else none := by
  unfold controlParams
  cases h : s.redistribution with
  | false =>
    simp only [Bool.false_eq_true, if_false, get?, eq_comm (b := k), if_true]
  | true =>
    simp only [if_true, Bool.true_eq_false, if_false, List.foldl]
    simp only [get?_set, get?, eq_comm (b := k)]
    by_cases h1 : k = str! "time_limit"
    · subst h1; rfl
    by_cases h2 : k = str! "number_of_steps"
    · subst h2; rfl
    by_cases h3 : k = str! "dump_interval"
    · subst h3; rfl
    by_cases h4 : k = str! "seed"
    · subst h4; rfl
    by_cases h5 : k = str! "rng_type"
    · subst h5; rfl
    by_cases h6 : k = str! "analysis_interval"
    · subst h6; rfl
    by_cases h7 : k = str! "start_time"
    · subst h7; rfl
    by_cases h8 : k = str! "extra_traj"
    · subst h8; rfl
    by_cases h9 : k = str! "do_redistribution"
    · subst h9; rfl
    simp only [if_neg h1, if_neg h2, if_neg h3, if_neg h4, if_neg h5, if_neg h6, if_neg h7, if_neg h8, if_neg h9]
    by_cases g1 : k = str! "empty_element"
    · subst g1; rfl
    by_cases g2 : k = str! "distributor_type"
    · subst g2; rfl
    by_cases g3 : k = str! "nsplits"
    · subst g3; rfl
    by_cases g4 : k = str! "fast_species"
    · subst g4; rfl
    simp only [if_neg g1, if_neg g2, if_neg g3, if_neg g4]

/-- **C81** Asking for a seed that depends on the time has no effect. -/
theorem C81_timeSeed_refuted (s : KmcSettings) (b : Bool) : controlParams { s with timeSeed := b } = controlParams s := rfl

/-! ### Histories -/

/-- An operation that tries to make the processes and fails, or the direct method, which adds the labels again. -/
def KmcOp.Spoils (s : KmcSettings) (st : KmcState K C) : KmcOp K C → Prop
  | .parse .. => False
  | .getProcesses => True
  | _ => st.cache = none ∧ ¬ (st.processes s).1.isOk

/-- No operation of the history spoils the labels. -/
def Unspoiled (s : KmcSettings) : KmcState K C → List (KmcOp K C) → Prop
  | _, [] => True
  | st, op :: ops => ¬ op.Spoils s st ∧ Unspoiled s (st.step s op).2 ops

/-- The rates `r` and the definitions `ds` were read in the history. -/
def WasRead (ops : List (KmcOp K C)) (r : Str → Py (K × K)) (ds : List (ProcDict C)) : Prop :=
  (∃ pf cf sf, KmcOp.parse (.ok r) pf cf sf ∈ ops) ∧ (∃ e cf sf, KmcOp.parse e (.data ds) cf sf ∈ ops)

structure KmcInv (s : KmcSettings) (ops : List (KmcOp K C)) (st : KmcState K C) : Prop where
  fresh : st.cache = none → st.mapping = []
  loaded : ∀ ds, st.dicts = some ds → WasRead ops st.rates ds
  made : ∀ ps, st.cache = some ps → ∃ r ds, WasRead ops r ds ∧ getProcesses ⟨s.exprs, s.lattice.elementTypes, r⟩ ds [] = (.ok ps, st.mapping)
  model : ∀ ps, st.procs = some ps → st.cache = some ps
  known : st.mappingKnown = st.procs.isSome
  calls : ∀ c ∈ st.calls, st.cache = some c.procs ∧ c.control = controlParams s

theorem WasRead.mono {ops ops' : List (KmcOp K C)} {r : Str → Py (K × K)} {ds : List (ProcDict C)} (h : WasRead ops r ds)
    (hs : ∀ op ∈ ops, op ∈ ops') : WasRead ops' r ds := by
  obtain ⟨⟨a, b, c, h1⟩, ⟨d, e, f, h2⟩⟩ := h
  exact ⟨⟨a, b, c, hs _ h1⟩, ⟨d, e, f, hs _ h2⟩⟩

theorem KmcInv.mono {s : KmcSettings} {ops ops' : List (KmcOp K C)} {st : KmcState K C} (h : KmcInv s ops st)
    (hs : ∀ op ∈ ops, op ∈ ops') : KmcInv s ops' st :=
  ⟨h.fresh, fun ds hd => (h.loaded ds hd).mono hs, fun ps hp => by
    obtain ⟨r, ds, h1, h2⟩ := h.made ps hp; exact ⟨r, ds, h1.mono hs, h2⟩, h.model, h.known, h.calls⟩

/-- Asking for the processes keeps the invariant and gives the cached ones. -/
theorem processes_inv {s : KmcSettings} {ops : List (KmcOp K C)} {st : KmcState K C} (h : KmcInv s ops st)
    {ps : List (KProc K C)} {st' : KmcState K C} (he : st.processes s = (.ok ps, st')) :
    KmcInv s ops st' ∧ st'.cache = some ps ∧ st'.calls = st.calls ∧ st'.config = st.config ∧ st'.sites = st.sites := by
  unfold KmcState.processes at he
  cases hc : st.cache with
  | some qs =>
    rw [hc] at he
    obtain ⟨h1, h2⟩ := Prod.mk.inj he
    cases h1
    subst h2
    exact ⟨h, hc, rfl, rfl, rfl⟩
  | none =>
    rw [hc] at he
    unfold KmcState.getProcesses at he
    cases hd : st.dicts with
    | none => rw [hd] at he; exact nomatch (Prod.mk.inj he).1
    | some ds =>
      rw [hd, h.fresh hc] at he
      dsimp only at he
      cases hg : getProcesses (st.owner s) ds [] with
      | mk a m =>
        rw [hg] at he
        cases a with
        | error e => exact nomatch (Prod.mk.inj he).1
        | ok qs =>
          obtain ⟨h1, h2⟩ := Prod.mk.inj he
          cases h1
          subst h2
          refine ⟨⟨fun h' => (nomatch h'), fun ds' hd' => h.loaded ds' (by rw [hd]; exact hd'), ?_, ?_, h.known, ?_⟩, rfl, rfl, rfl, rfl⟩
          · intro ps' hp
            cases hp
            exact ⟨st.rates, ds, h.loaded ds hd, hg⟩
          · intro ps' hp
            have := h.model ps' hp
            rw [hc] at this
            exact nomatch this
          · intro c hm
            have := (h.calls c hm).1
            rw [hc] at this
            exact nomatch this

/-- A run of the solver keeps the invariant. -/
theorem solverRun_inv {s : KmcSettings} {ops : List (KmcOp K C)} {st : KmcState K C} (h : KmcInv s ops st) (ma sc : Bool) (t : Str) (e : Py Unit)
    (hok : st.cache = none → (st.processes s).1.isOk) : KmcInv s ops (st.solverRun s ma sc t e).2 := by
  unfold KmcState.solverRun
  cases analysisObjects s st with
  | error x => exact h
  | ok an =>
    dsimp only
    cases hp : st.processes s with
    | mk a st' =>
      cases a with
      | error x =>
        cases hc : st.cache with
        | none =>
          have := hok hc
          rw [hp] at this
          exact nomatch this
        | some qs =>
          unfold KmcState.processes at hp
          rw [hc] at hp
          exact nomatch (Prod.mk.inj hp).1
      | ok ps =>
        obtain ⟨h1, h2, -, -, -⟩ := processes_inv h hp
        dsimp only
        split
        · cases (sc && ma)
          all_goals
            refine ⟨h1.fresh, h1.loaded, h1.made, h1.model, h1.known, ?_⟩
            intro c hm
            have hm' : c ∈ st'.calls ∨ (c.procs = ps ∧ c.control = controlParams s) := by
              rcases List.mem_append.mp hm with h' | h'
              · exact .inl h'
              · rw [List.mem_singleton] at h'
                subst h'
                exact .inr ⟨rfl, rfl⟩
            rcases hm' with h' | ⟨h', h''⟩
            · exact h1.calls c h'
            · rw [h', h'']
              exact ⟨h2, rfl⟩
        · exact h1

theorem kmc_inv {s : KmcSettings} (ops : List (KmcOp K C)) : ∀ (past : List (KmcOp K C)) (st : KmcState K C), KmcInv s past st → Unspoiled s st ops →
    KmcInv s (past ++ ops) (st.steps s ops) := by
  induction ops with
  | nil => intro past st h _; rw [List.append_nil]; exact h
  | cons op ops ih =>
    intro past st h hu
    have key : KmcInv s (past ++ [op]) (st.step s op).2 := by
      have hm := h.mono (ops' := past ++ [op]) (fun o ho => List.mem_append_left _ ho)
      cases op with
      | parse e pf cf sf =>
        obtain ⟨h1, h2, h3, h4, h5, h6⟩ := C81_reading s st e pf cf sf
        have hp : (st.step s (.parse e pf cf sf)).2 = (st.parse s e pf cf sf).2 := rfl
        rw [hp]
        have same : (st.parse s e pf cf sf).2.procs = st.procs ∧ (st.parse s e pf cf sf).2.mappingKnown = st.mappingKnown ∧
            ((st.parse s e pf cf sf).2.rates = st.rates ∨ e = .ok (st.parse s e pf cf sf).2.rates) := by
          unfold KmcState.parse
          cases e with
          | error x => exact ⟨rfl, rfl, .inl rfl⟩
          | ok r =>
            dsimp only
            split <;> exact ⟨rfl, rfl, .inr rfl⟩
        refine ⟨?_, ?_, ?_, ?_, ?_, ?_⟩
        · rw [h5, h6]; exact hm.fresh
        · intro ds hd
          by_cases hk : (st.parse s e pf cf sf).1.isOk = true
          · obtain ⟨⟨l, k1, k2⟩, -, -, k3⟩ := h3 hk
            rw [k2] at hd
            cases hd
            exact ⟨⟨pf, cf, sf, by rw [← k3]; simp⟩, ⟨e, cf, sf, by rw [← k1]; simp⟩⟩
          · rw [(h2 hk).1] at hd
            have := hm.loaded ds hd
            rcases same.2.2 with h' | h'
            · rw [h']; exact this
            · exact ⟨⟨pf, cf, sf, by rw [← h']; simp⟩, this.2⟩
        · intro ps hc; rw [h5] at hc; rw [h6]; exact hm.made ps hc
        · intro ps hc; rw [same.1] at hc; rw [h5]; exact hm.model ps hc
        · rw [same.1, same.2.1]; exact hm.known
        · intro c hc; rw [h4] at hc; rw [h5]; exact hm.calls c hc
      | processes =>
        have hs : (st.step s .processes).2 = (st.processes s).2 := rfl
        rw [hs]
        cases hp : st.processes s with
        | mk a st' =>
          cases a with
          | error x =>
            exfalso
            apply hu.1
            cases hc : st.cache with
            | none => exact ⟨hc, by rw [hp]; exact fun h => (nomatch h)⟩
            | some qs => unfold KmcState.processes at hp; rw [hc] at hp; exact nomatch (Prod.mk.inj hp).1
          | ok ps => exact (processes_inv hm hp).1
      | getProcesses => exact absurd trivial hu.1
      | solverRun ma sc t e =>
        apply solverRun_inv hm
        intro hc
        by_contra hn
        exact hu.1 ⟨hc, hn⟩
      | run ma sc t e =>
        have hs : (st.step s (.run ma sc t e)).2 = (st.run s ma sc t e).2 := rfl
        rw [hs]
        unfold KmcState.run
        cases hp : st.processes s with
        | mk a st' =>
          cases a with
          | error x =>
            exfalso
            apply hu.1
            cases hc : st.cache with
            | none => exact ⟨hc, by rw [hp]; exact fun h => (nomatch h)⟩
            | some qs => unfold KmcState.processes at hp; rw [hc] at hp; exact nomatch (Prod.mk.inj hp).1
          | ok ps =>
            obtain ⟨h1, h2, -, -, -⟩ := processes_inv hm hp
            dsimp only
            apply solverRun_inv
            · exact ⟨h1.fresh, h1.loaded, h1.made, fun ps' hp' => by cases hp'; exact h2, rfl, h1.calls⟩
            · intro hc
              rw [show st'.cache = none from hc] at h2
              exact nomatch h2
    have := ih (past ++ [op]) _ key hu.2
    rw [List.append_assoc] at this
    exact this

/-- **C81** (partial) In every history without the direct method `get_processes` and without failed attempts to make the
processes, all runs are given the same processes, the ones the model shows, made of definitions and energies that were read;
the labels are those of the processes, once. Missing: failed attempts (`C81_retry_refuted`), the direct method
(`C51_twice_refuted`), files read later (`C81_stale_refuted`), and definitions and energies of different files
(`C81_mixed_refuted`). -/
theorem C81_history_partial (s : KmcSettings) (ops : List (KmcOp K C)) (h : Unspoiled s .init ops) :
    let st := KmcState.steps s .init ops
    ∀ c ∈ st.calls, c.control = controlParams s ∧ (∀ c' ∈ st.calls, c'.procs = c.procs) ∧ (∀ ps, st.view.1 = .ok ps → ps = c.procs ∧ st.view.2 = .ok st.mapping) ∧
      ∃ r ds, WasRead ops r ds ∧ getProcesses ⟨s.exprs, s.lattice.elementTypes, r⟩ ds [] = (.ok c.procs, st.mapping) := by
  intro st c hc
  have h0 : KmcInv s [] (KmcState.init : KmcState K C) :=
    ⟨fun _ => rfl, fun _ h => (nomatch h), fun _ h => (nomatch h), fun _ h => (nomatch h), rfl, fun _ h => (nomatch h)⟩
  have inv := kmc_inv ops [] _ h0 h
  rw [List.nil_append] at inv
  obtain ⟨h1, h2⟩ := inv.calls c hc
  refine ⟨h2, ?_, ?_, inv.made _ h1⟩
  · intro c' hc'
    have := (inv.calls c' hc').1
    rw [h1] at this
    exact (Option.some.inj this).symm
  · intro ps hp
    unfold KmcState.view at hp ⊢
    have hk := inv.known
    change st.mappingKnown = st.procs.isSome at hk
    cases hq : st.procs with
    | none => rw [hq] at hp; exact nomatch hp
    | some qs =>
      rw [hq] at hp hk
      have e1 : qs = ps := Except.ok.inj hp
      have := inv.model qs hq
      rw [h1] at this
      refine ⟨by rw [← e1]; exact (Option.some.inj this).symm, ?_⟩
      dsimp only
      rw [hk]
      rfl

/-! ### Concrete histories -/

def exKmcSettings : KmcSettings := ⟨[str! "CO_g + *_s -> CO_s", str! "CO_s + *_t -> *_s + CO_t"],
  ⟨[2, 2, 1], 1, [str! "top"], [str! "V", str! "C"], str! "V"⟩, [str! "FrequencyAnalysis"], .inf, .int 100, .int 1, .none, true, .str (str! "MT"),
  .none, .float 0, .none, true, .int 1, .none, .ints [1, 1, 1], .str (str! "RandomDistributor")⟩

/-- Rates that are twice `q` and three times `q`. -/
def exRates (q : ℚ) : Str → Py (ℚ × ℚ) := fun _ => .ok (2 * q, 3 * q)

def exKmcParse (q : ℚ) (ds : List (ProcDict Nat)) : KmcOp ℚ Nat := .parse (.ok (exRates q)) (.data ds) .missing .missing

def exKmcRun : KmcOp ℚ Nat := .run true true (str! "lattice") (.ok ())

/-- Reading, asking for the processes and two runs: nothing is spoiled, two runs are made. -/
def exKmcOps : List (KmcOp ℚ Nat) := [exKmcParse 1 [exKmcAds false false], .processes, exKmcRun, exKmcRun]

example : Unspoiled exKmcSettings .init exKmcOps ∧ (KmcState.steps exKmcSettings .init exKmcOps).calls.length = 2 ∧
    (KmcState.steps exKmcSettings .init exKmcOps).mapping.length = 4 ∧
    (∀ c ∈ (KmcState.steps exKmcSettings .init exKmcOps).calls, c.procs.length = 4 ∧ c.sites.length = 4 ∧ c.config.length = 4) := by
  refine ⟨⟨id, ?_, ?_, ?_, trivial⟩, rfl, rfl, ?_⟩
  · exact fun h => h.2 rfl
  · exact fun h => (nomatch h.1)
  · exact fun h => (nomatch h.1)
  · decide +kernel

example : (KmcState.parse exKmcSettings .init (.ok (exRates 1)) (.data [exKmcAds false false]) .missing .missing).1.isOk ∧
    ¬ (KmcState.parse exKmcSettings .init (.ok (exRates 1)) (.data [exKmcAds false false]) .missing (.data [str! "bridge"])).1.isOk :=
  ⟨rfl, fun h => (nomatch h)⟩

/-- **C81** Files read after a run are not used by the next run: it gets the old processes, with the old rates, although the
new definitions are shown by the model. -/
theorem C81_stale_refuted : ∃ ops : List (KmcOp ℚ Nat), Unspoiled exKmcSettings .init ops ∧
    let st := KmcState.steps exKmcSettings .init ops
    (st.dicts.map fun l => l.map (·.reaction)) = some [str! "CO_s + *_t -> *_s + CO_t"] ∧
    (st.calls.map fun c => c.procs.map fun p => (p.before, p.rate)) = [[([str! "V"], 2), ([str! "C"], 3), ([str! "V"], 2), ([str! "C"], 3)],
      [([str! "V"], 2), ([str! "C"], 3), ([str! "V"], 2), ([str! "C"], 3)]] := by
  refine ⟨[exKmcParse 1 [exKmcAds false false], exKmcRun, exKmcParse 5 [exHop false false], exKmcRun], ⟨id, ?_, id, ?_, trivial⟩, rfl, ?_⟩
  · exact fun h => h.2 rfl
  · exact fun h => (nomatch h.1)
  · decide +kernel

/-- **C81** When the processes could not be made because of one definition, the labels of the earlier definitions stay: after
the file is corrected the labels no longer belong to the processes. -/
theorem C81_retry_refuted : ∃ ops : List (KmcOp ℚ Nat),
    let st := KmcState.steps exKmcSettings .init ops
    ∃ c ∈ st.calls, c.procs.length = 6 ∧ st.mapping.length = 10 ∧ (c.procs[4]?.map (·.before)) = some [str! "C", str! "V"] ∧
      st.mapping[4]? = some (str! "CO_g + *_s -> CO_s(->)") := by
  refine ⟨[exKmcParse 1 [exKmcAds false false, { exHop false false with reaction := str! "wrong" }], exKmcRun,
    exKmcParse 1 [exKmcAds false false, exHop false false], exKmcRun], ?_⟩
  exact ⟨_, List.mem_singleton.mpr rfl, rfl, rfl, rfl, rfl⟩

/-- **C81** A reading that fails after the energies leaves the new energies with the old definitions: the run uses both. -/
theorem C81_mixed_refuted : ∃ ops : List (KmcOp ℚ Nat), Unspoiled exKmcSettings .init ops ∧
    let st := KmcState.steps exKmcSettings .init ops
    (st.calls.map fun c => c.procs.map fun p => (p.before, p.rate)) = [[([str! "V"], 10), ([str! "C"], 15), ([str! "V"], 10), ([str! "C"], 15)]] := by
  refine ⟨[exKmcParse 1 [exKmcAds false false], .parse (.ok (exRates 5)) (.data [exHop false false]) .missing (.data []), exKmcRun],
    ⟨id, id, ?_, trivial⟩, ?_⟩
  · exact fun h => h.2 rfl
  · decide +kernel

/-- **C81** Analysis of frequencies needs a run of the model: a run of its solver raises. -/
theorem C81_solverRun_refuted : ((KmcState.steps exKmcSettings .init [exKmcParse 1 [exKmcAds false false]]).solverRun
    exKmcSettings true true (str! "lattice") (.ok ())).1 = .error .AttributeError := rfl

/-- **C81** A failure of the simulation is a failure of the run: whatever the state, it is not hidden. -/
theorem C81_failure (s : KmcSettings) (ma sc : Bool) (t : Str) (x : PyErr) (st : KmcState K C) :
    ¬ (st.run s ma sc t (.error x)).1.isOk ∧ ¬ (st.solverRun s ma sc t (.error x)).1.isOk ∧
    ((st.run s ma sc t (.ok ())).1.isOk → (st.run s ma sc t (.error x)).1 = .error x) := by
  have key : ∀ st : KmcState K C, ¬ (st.solverRun s ma sc t (.error x)).1.isOk ∧
      ((st.solverRun s ma sc t (.ok ())).1.isOk → (st.solverRun s ma sc t (.error x)).1 = .error x) := by
    intro st
    unfold KmcState.solverRun
    cases analysisObjects s st with
    | error e => exact ⟨fun h => (nomatch h), fun h => (nomatch h)⟩
    | ok an =>
      dsimp only
      split
      · exact ⟨fun h => (nomatch h), fun h => (nomatch h)⟩
      · split
        · exact ⟨fun h => (nomatch h), fun _ => rfl⟩
        · exact ⟨fun h => (nomatch h), fun h => (nomatch h)⟩
  refine ⟨?_, (key st).1, ?_⟩
  · unfold KmcState.run
    split
    · exact fun h => nomatch h
    · exact (key _).1
  · unfold KmcState.run
    split
    · exact fun h => nomatch h
    · exact (key _).2

example : ((KmcState.steps exKmcSettings .init [exKmcParse 1 [exKmcAds false false]]).run
    exKmcSettings true true (str! "lattice") (.ok ())).1.isOk := rfl

/-- **C81** A run that does not raise hands exactly one call to the simulation, with the lattice that was read, all analysis
objects in the order of the settings and the file for the trajectory. -/
theorem C81_call (s : KmcSettings) (ma sc : Bool) (t : Str) (st : KmcState K C) (h : (st.run s ma sc t (.ok ())).1.isOk) :
    ∃ ps c m, (st.processes s).1 = .ok ps ∧ st.config = some c ∧ st.sites = some m ∧
      (st.run s ma sc t (.ok ())).2.calls = st.calls ++ [⟨ps, c, m, controlParams s, str! "auto_" ++ t ++ str! "_trajectory.py", t,
        if s.analysis = [] then none else some s.analysis⟩] := by
  have hsame : (st.processes s).2.config = st.config ∧ (st.processes s).2.sites = st.sites ∧ (st.processes s).2.calls = st.calls := by
    unfold KmcState.processes KmcState.getProcesses
    split
    · exact ⟨rfl, rfl, rfl⟩
    · cases st.dicts with
      | none => exact ⟨rfl, rfl, rfl⟩
      | some ds =>
        dsimp only
        split
        · rename_i hx
          obtain ⟨-, h2⟩ := Prod.mk.inj hx
          subst h2
          exact ⟨rfl, rfl, rfl⟩
        · rename_i hx
          obtain ⟨-, h2⟩ := Prod.mk.inj hx
          subst h2
          exact ⟨rfl, rfl, rfl⟩
  have hcache : ∀ ps st', st.processes s = (.ok ps, st') → st'.cache = some ps := by
    intro ps st' he
    unfold KmcState.processes at he
    split at he
    · rename_i hc
      obtain ⟨h1, h2⟩ := Prod.mk.inj he
      subst h2
      rw [hc, Except.ok.inj h1]
    · split at he
      · exact nomatch (Prod.mk.inj he).1
      · obtain ⟨h1, h2⟩ := Prod.mk.inj he
        subst h2
        rw [← Except.ok.inj h1]
  unfold KmcState.run at h ⊢
  cases hp : st.processes s with
  | mk a st' =>
    rw [hp] at h hsame
    cases a with
    | error x => exact nomatch h
    | ok ps =>
      dsimp only at h hsame ⊢
      have hc := hcache ps st' hp
      have han : ∀ an, analysisObjects s { st' with procs := some ps, mappingKnown := true } = .ok an →
          an = if s.analysis = [] then none else some s.analysis := by
        intro an ha
        unfold analysisObjects at ha
        split at ha
        · rename_i h0
          rw [if_pos h0]
          exact (Except.ok.inj ha).symm
        · rename_i h0
          rw [if_neg h0]
          have hone : ∀ name a, makeAnalysis { st' with procs := some ps, mappingKnown := true } name = .ok a → a = name := by
            intro name a hm
            unfold makeAnalysis at hm
            split at hm
            · exact (Except.ok.inj hm).symm
            · split at hm
              · exact (Except.ok.inj hm).symm
              · exact nomatch hm
          have hl : ∀ (l r : List Str), l.mapM (makeAnalysis { st' with procs := some ps, mappingKnown := true }) = .ok r → r = l := by
            intro l
            induction l with
            | nil => intro r hr; exact (Except.ok.inj hr).symm
            | cons x l ih =>
              intro r hr
              rw [List.mapM_cons, bind_ok] at hr
              obtain ⟨y, h1, hr⟩ := hr
              rw [bind_ok] at hr
              obtain ⟨ys, h2, hr⟩ := hr
              rw [← Except.ok.inj hr, hone x y h1, ih ys h2]
          cases hm : s.analysis.mapM (makeAnalysis { st' with procs := some ps, mappingKnown := true }) with
          | error x => rw [hm] at ha; exact nomatch ha
          | ok r =>
            rw [hm] at ha
            rw [← Except.ok.inj ha, hl _ _ hm]
      unfold KmcState.solverRun at h ⊢
      cases ha : analysisObjects s { st' with procs := some ps, mappingKnown := true } with
      | error x => rw [ha] at h; exact nomatch h
      | ok an =>
        rw [ha] at h
        have hproc : KmcState.processes s { st' with procs := some ps, mappingKnown := true } = (.ok ps, { st' with procs := some ps, mappingKnown := true }) := by
          unfold KmcState.processes
          dsimp only
          rw [hc]
        rw [hproc] at h ⊢
        dsimp only at h ⊢
        cases h1 : st'.config with
        | none => rw [h1] at h; exact nomatch h
        | some c =>
          cases h2 : st'.sites with
          | none => rw [h1, h2] at h; exact nomatch h
          | some m =>
            refine ⟨ps, c, m, rfl, by rw [← hsame.1, h1], by rw [← hsame.2.1, h2], ?_⟩
            rw [han an ha, ← hsame.2.2]
            dsimp only
            split <;> rfl

example : (KmcState.run exKmcSettings true true (str! "lattice") (.ok ())
    (KmcState.steps exKmcSettings .init [exKmcParse 1 [exKmcAds false false]])).1.isOk := rfl

end Verif
