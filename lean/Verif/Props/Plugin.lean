import Verif.Model.Plugin
import Verif.Lemmas.Dict
import Verif.Lemmas.Py
import Mathlib.Data.List.Induction
/-
Classes of analysis plugins (C73).
-/
namespace Verif
open Dict

/-- A name counts as given in a body when it is bound to something else than `None`. -/
def Given (attrs : Dict Str ClassAttr) (name : Str) (v : ClassAttr) : Prop := get? attrs name = some v ∧ v ≠ .nothing

theorem defaultMethod_get? {attrs attrs' : Dict Str ClassAttr} {name : Str} (h : defaultMethod attrs name = .ok attrs') :
    (∀ s, s ≠ name → get? attrs' s = get? attrs s) ∧ (∀ v, Given attrs name v → get? attrs' name = some v ∧ v.callable = true) ∧
      ((¬ ∃ v, Given attrs name v) → get? attrs' name = some .noop) := by
  have hset : ∀ s, get? (Dict.set attrs name .noop) s = if name = s then some .noop else get? attrs s := fun s => get?_set ..
  unfold defaultMethod at h
  cases hg : get? attrs name with
  | none =>
    rw [hg] at h
    cases h
    refine ⟨fun s hs => by rw [hset, if_neg (Ne.symm hs)], fun v hv => ?_, fun _ => by rw [hset, if_pos rfl]⟩
    rw [hv.1] at hg; cases hg
  | some v =>
    rw [hg] at h
    by_cases hn : v = .nothing
    · subst hn
      cases h
      refine ⟨fun s hs => by rw [hset, if_neg (Ne.symm hs)], fun w hw => ?_, fun _ => by rw [hset, if_pos rfl]⟩
      rw [hw.1] at hg; cases hg; exact absurd rfl hw.2
    · have h' : (if v.callable then (.ok attrs : Py (Dict Str ClassAttr)) else .error .AttributeError) = .ok attrs' := by
        cases v <;> first | exact h | exact absurd rfl hn
      by_cases hc : v.callable = true
      · rw [if_pos hc] at h'
        cases h'
        refine ⟨fun _ _ => rfl, fun w hw => ?_, fun hw => absurd ⟨v, hg, hn⟩ hw⟩
        rw [hw.1] at hg; cases hg; exact ⟨hw.1, hc⟩
      · rw [if_neg hc] at h'; cases h'

theorem defaultMethod_error {attrs : Dict Str ClassAttr} {name : Str} :
    (∃ e, defaultMethod attrs name = .error e) ↔ ∃ v, Given attrs name v ∧ v.callable = false := by
  unfold defaultMethod Given
  cases hg : get? attrs name with
  | none => simp
  | some v => cases v <;> simp [ClassAttr.callable]

theorem defaultMethod_which {attrs : Dict Str ClassAttr} {name : Str} {e : PyErr} (h : defaultMethod attrs name = .error e) : e = .AttributeError := by
  unfold defaultMethod at h
  cases hg : get? attrs name with
  | none => rw [hg] at h; cases h
  | some v => rw [hg] at h; cases v <;> simp [ClassAttr.callable] at h <;> exact h.symm

theorem checkPluginInterval_ok (v : Option ClassAttr) :
    (checkPluginInterval v = .ok () ↔ ∀ w, v = some w → ∃ n : Int, w = .int n ∧ 0 < n) ∧
    (∀ e, checkPluginInterval v = .error e → e = .TypeError) := by
  cases v with
  | none => simp [checkPluginInterval]
  | some w =>
    cases w with
    | int n =>
      unfold checkPluginInterval
      by_cases hn : n ≤ 0
      · simp [hn]
      · simp [hn]; omega
    | _ => simp [checkPluginInterval]

/-- What the value of a name in a new class is: what the body gives, the no-op for a method that is not given, otherwise
what the bases say. -/
theorem newPlugin_lookup {bases m : Mro} {attrs : Dict Str ClassAttr} (h : newPlugin bases attrs = .ok m) :
    checkPluginInterval (get? attrs (str! "interval")) = .ok () ∧
    (∀ name ∈ pluginMethods, (∀ v, Given attrs name v → classLookup m name = some v ∧ v.callable = true) ∧
      ((¬ ∃ v, Given attrs name v) → classLookup m name = some .noop)) ∧
    (∀ name, name ∉ pluginMethods → classLookup m name = (get? attrs name).or (classLookup bases name)) := by
  unfold newPlugin at h
  obtain ⟨u, hi, h⟩ := bind_ok.mp h
  obtain ⟨a3, hf, h⟩ := bind_ok.mp h
  cases h
  simp only [pluginMethods, List.foldlM_cons, List.foldlM_nil] at hf
  obtain ⟨a1, h1, hf⟩ := bind_ok.mp hf
  obtain ⟨a2, h2, hf⟩ := bind_ok.mp hf
  obtain ⟨a3', h3, hf⟩ := bind_ok.mp hf
  cases hf
  obtain ⟨o1, g1, n1⟩ := defaultMethod_get? h1
  obtain ⟨o2, g2, n2⟩ := defaultMethod_get? h2
  obtain ⟨o3, g3, n3⟩ := defaultMethod_get? h3
  have hl : ∀ name v, get? a3 name = some v → classLookup (a3 :: bases) name = some v := by
    intro name v h; simp [classLookup, h]
  refine ⟨hi, ?_, ?_⟩
  · intro name hn
    simp only [pluginMethods, List.mem_cons, List.not_mem_nil, or_false] at hn
    rcases hn with rfl | rfl | rfl
    · have e2 := o2 (str! "setup") (by decide)
      have e3 := o3 (str! "setup") (by decide)
      refine ⟨fun v hv => ⟨hl _ _ ?_, (g1 v hv).2⟩, fun hv => hl _ _ ?_⟩
      · rw [e3, e2]; exact (g1 v hv).1
      · rw [e3, e2]; exact n1 hv
    · have e1 := o1 (str! "register_step") (by decide)
      have e3 := o3 (str! "register_step") (by decide)
      have hG : ∀ v, Given a1 (str! "register_step") v ↔ Given attrs (str! "register_step") v := by
        intro v; unfold Given; rw [e1]
      refine ⟨fun v hv => ⟨hl _ _ ?_, (g2 v ((hG v).mpr hv)).2⟩, fun hv => hl _ _ ?_⟩
      · rw [e3]; exact (g2 v ((hG v).mpr hv)).1
      · rw [e3]; exact n2 (fun ⟨v, hv'⟩ => hv ⟨v, (hG v).mp hv'⟩)
    · have e1 := o1 (str! "finalize") (by decide)
      have e2 := o2 (str! "finalize") (by decide)
      have hG : ∀ v, Given a2 (str! "finalize") v ↔ Given attrs (str! "finalize") v := by
        intro v; unfold Given; rw [e2, e1]
      refine ⟨fun v hv => ⟨hl _ _ ?_, (g3 v ((hG v).mpr hv)).2⟩, fun hv => hl _ _ ?_⟩
      · exact (g3 v ((hG v).mpr hv)).1
      · exact n3 (fun ⟨v, hv'⟩ => hv ⟨v, (hG v).mp hv'⟩)
  · intro name hn
    simp only [pluginMethods, List.mem_cons, List.not_mem_nil, or_false, not_or] at hn
    have : get? a3 name = get? attrs name := by rw [o3 name hn.2.2, o2 name hn.2.1, o1 name hn.1]
    unfold classLookup
    rw [List.findSome?_cons, this]
    cases get? attrs name <;> rfl

/-- **C73** A class is accepted exactly if its body gives no interval or a positive whole number, and no method that
cannot be called; a bad interval is a `TypeError`, a bad method an `AttributeError`. -/
theorem C73_accepted (bases : Mro) (attrs : Dict Str ClassAttr) :
    ((∃ m, newPlugin bases attrs = .ok m) ↔ (∀ v, get? attrs (str! "interval") = some v → ∃ n : Int, v = .int n ∧ 0 < n) ∧
      ∀ name ∈ pluginMethods, ∀ v, Given attrs name v → v.callable = true) ∧
    (∀ v, get? attrs (str! "interval") = some v → (¬ ∃ n : Int, v = .int n ∧ 0 < n) → newPlugin bases attrs = .error .TypeError) ∧
    ((∀ v, get? attrs (str! "interval") = some v → ∃ n : Int, v = .int n ∧ 0 < n) → ∀ name ∈ pluginMethods, ∀ v, Given attrs name v → v.callable = false →
      newPlugin bases attrs = .error .AttributeError) := by
  have hbad : ∀ name ∈ pluginMethods, ∀ v, Given attrs name v → v.callable = false →
      pluginMethods.foldlM defaultMethod attrs = .error .AttributeError := by
    intro name hn v hv hc
    cases hf : pluginMethods.foldlM defaultMethod attrs with
    | error e =>
      simp only [pluginMethods, List.foldlM_cons, List.foldlM_nil] at hf
      rcases bind_error.mp hf with h | ⟨a1, -, hf⟩
      · rw [defaultMethod_which h]
      · rcases bind_error.mp hf with h | ⟨a2, -, hf⟩
        · rw [defaultMethod_which h]
        · rcases bind_error.mp hf with h | ⟨a3, -, hf⟩
          · rw [defaultMethod_which h]
          · cases hf
    | ok a =>
      exfalso
      simp only [pluginMethods, List.foldlM_cons, List.foldlM_nil] at hf
      obtain ⟨a1, h1, hf⟩ := bind_ok.mp hf
      obtain ⟨a2, h2, hf⟩ := bind_ok.mp hf
      obtain ⟨a3, h3, hf⟩ := bind_ok.mp hf
      simp only [pluginMethods, List.mem_cons, List.not_mem_nil, or_false] at hn
      have key : ∀ {b b' : Dict Str ClassAttr}, defaultMethod b name = .ok b' → get? b name = get? attrs name → False := by
        intro b b' hb he
        have := ((defaultMethod_get? hb).2.1 v ⟨by rw [he]; exact hv.1, hv.2⟩).2
        rw [hc] at this; cases this
      rcases hn with rfl | rfl | rfl
      · exact key h1 rfl
      · exact key h2 ((defaultMethod_get? h1).1 _ (by decide))
      · exact key h3 (((defaultMethod_get? h2).1 _ (by decide)).trans ((defaultMethod_get? h1).1 _ (by decide)))
  have hint := checkPluginInterval_ok (get? attrs (str! "interval"))
  refine ⟨⟨fun ⟨m, h⟩ => ?_, fun ⟨h1, h2⟩ => ?_⟩, fun v hv hno => ?_, fun hi name hn v hv hc => ?_⟩
  · obtain ⟨h1, h2, -⟩ := newPlugin_lookup h
    exact ⟨hint.1.mp h1, fun name hn v hv => ((h2 name hn).1 v hv).2⟩
  · unfold newPlugin
    rw [hint.1.mpr h1]
    cases hf : pluginMethods.foldlM defaultMethod attrs with
    | ok a => exact ⟨a :: bases, rfl⟩
    | error e =>
      exfalso
      simp only [pluginMethods, List.foldlM_cons, List.foldlM_nil] at hf
      have key : ∀ {b : Dict Str ClassAttr} {name : Str}, name ∈ pluginMethods → defaultMethod b name = .error e → get? b name = get? attrs name → False := by
        intro b name hn hb he
        obtain ⟨v, hv, hc⟩ := defaultMethod_error.mp ⟨e, hb⟩
        have := h2 name hn v ⟨by rw [← he]; exact hv.1, hv.2⟩
        rw [hc] at this; cases this
      rcases bind_error.mp hf with h | ⟨a1, e1, hf⟩
      · exact key (by decide) h rfl
      · rcases bind_error.mp hf with h | ⟨a2, e2, hf⟩
        · exact key (by decide) h ((defaultMethod_get? e1).1 _ (by decide))
        · rcases bind_error.mp hf with h | ⟨a3, e3, hf⟩
          · exact key (by decide) h (((defaultMethod_get? e2).1 _ (by decide)).trans ((defaultMethod_get? e1).1 _ (by decide)))
          · cases hf
  · unfold newPlugin
    cases hc : checkPluginInterval (get? attrs (str! "interval")) with
    | ok u => exact absurd (hint.1.mp hc v hv) hno
    | error e => rw [hint.2 e hc]; rfl
  · unfold newPlugin
    rw [hint.1.mpr hi, hbad name hn v hv hc]
    rfl

/-- **C73** A method given in the body of a plugin is the one the solver calls. -/
theorem C73_methods (bases m : Mro) (attrs : Dict Str ClassAttr) (h : newPlugin bases attrs = .ok m) (name : Str) (hn : name ∈ pluginMethods)
    (id : Nat) (hg : get? attrs name = some (.bound id)) : callMethod m name = .ok (some id) := by
  have := ((newPlugin_lookup h).2.1 name hn).1 _ ⟨hg, by simp⟩
  unfold callMethod; rw [this.1]

/-- **C73** Calling a method of a plugin derived from the interface never fails for lack of it: it is the user's function
or does nothing. -/
theorem C73_total (bases m : Mro) (attrs : Dict Str ClassAttr) (h : newPlugin bases attrs = .ok m) (name : Str) (hn : name ∈ pluginMethods)
    (hr : get? attrs name ≠ some .raiser) : ∃ r, callMethod m name = .ok r := by
  have h1 := (newPlugin_lookup h).2.1 name hn
  by_cases hv : ∃ v, Given attrs name v
  · obtain ⟨v, hv⟩ := hv
    obtain ⟨h2, h3⟩ := h1.1 v hv
    unfold callMethod
    rw [h2]
    have := hv.1
    cases v <;> first | exact ⟨_, rfl⟩ | exact absurd this hr | cases h3
  · unfold callMethod
    rw [h1.2 hv]
    exact ⟨_, rfl⟩

/-- **C73** (partial) The interval of a class derived from the interface by plugin classes only is a positive whole
number: the one given last, or one. Missing: other bases are not checked (`C73_mixin_refuted`). -/
theorem C73_interval_partial (bodies : List (Dict Str ClassAttr)) (m : Mro) (h : derive bodies = .ok m) :
    ∃ n : Int, 0 < n ∧ classLookup m (str! "interval") = some (.int n) ∧
      (bodies.reverse.findSome? fun d => get? d (str! "interval")).getD (.int 1) = .int n := by
  unfold derive at h
  induction bodies using List.reverseRecOn generalizing m with
  | nil => cases h; exact ⟨1, by decide, rfl, rfl⟩
  | append_singleton l a ih =>
    rw [List.foldlM_append] at h
    obtain ⟨m', h', h⟩ := bind_ok.mp h
    simp only [List.foldlM_cons, List.foldlM_nil] at h
    obtain ⟨m2, h, h2⟩ := bind_ok.mp h
    cases h2
    obtain ⟨n, hn, hl, hb⟩ := ih m' h'
    obtain ⟨hi, -, hlook⟩ := newPlugin_lookup h
    rw [hlook _ (by decide), List.reverse_append, List.reverse_singleton, List.singleton_append, List.findSome?_cons]
    cases hg : get? a (str! "interval") with
    | none => exact ⟨n, hn, by simpa using hl, hb⟩
    | some v =>
      rw [hg] at hi
      obtain ⟨k, rfl, hk⟩ := (checkPluginInterval_ok _).1.mp hi v rfl
      exact ⟨k, hk, rfl, rfl⟩

/-- **C73** (partial) A plugin derived from the plugins of SCAKS only looks at a step exactly if its interval divides the number of
the step. Missing: other bases (`C73_mixin_refuted`). -/
theorem C73_steps_partial (bodies : List (Dict Str ClassAttr)) (m : Mro) (h : derive bodies = .ok m) :
    ∃ n : Int, 0 < n ∧ classLookup m (str! "interval") = some (.int n) ∧ ∀ counter, ∃ b, stepAnalysed m counter = .ok b ∧ (b = true ↔ n ∣ counter) := by
  obtain ⟨n, h1, h2, -⟩ := C73_interval_partial bodies m h
  refine ⟨n, h1, h2, fun c => ?_⟩
  unfold stepAnalysed
  rw [h2]
  dsimp only
  rw [if_neg (by omega)]
  exact ⟨_, rfl, by rw [decide_eq_true_eq, Int.dvd_iff_emod_eq_zero]⟩

/-- **C73** (refuted) A plugin derived from another plugin loses the methods it does not repeat: whatever the bases define,
the solver calls the function that does nothing. -/
theorem C73_inherited_refuted (bases m : Mro) (attrs : Dict Str ClassAttr) (h : newPlugin bases attrs = .ok m) (name : Str) (hn : name ∈ pluginMethods)
    (hg : get? attrs name = none) : callMethod m name = .ok none := by
  have := ((newPlugin_lookup h).2.1 name hn).2 (by rintro ⟨v, hv, -⟩; rw [hg] at hv; cases hv)
  unfold callMethod; rw [this]

/-- The body of a plugin that counts steps. -/
def exCounter : Dict Str ClassAttr := [(str! "interval", .int 5), (str! "register_step", .bound 7)]

/-- The body of a plugin derived from it, with a method called at the end. -/
def exFinal : Dict Str ClassAttr := [(str! "finalize", .bound 8), (str! "setup", .nothing)]

example : ∃ m, derive [exCounter, exFinal] = .ok m ∧ callMethod m (str! "finalize") = .ok (some 8) ∧ callMethod m (str! "register_step") = .ok none ∧
    stepAnalysed m 10 = .ok true ∧ stepAnalysed m 11 = .ok false := ⟨_, rfl, by decide, by decide, by decide, by decide⟩

example : ∃ m, derive [exCounter] = .ok m ∧ callMethod m (str! "register_step") = .ok (some 7) := ⟨_, rfl, by decide⟩

example : newPlugin onTheFly [(str! "interval", .bool true)] = .error .TypeError ∧ newPlugin onTheFly [(str! "setup", .int 3)] = .error .AttributeError :=
  ⟨by decide, by decide⟩

/-- **C73** (refuted) An interval of zero gets in through a base that is not a plugin, and the first step then fails. -/
theorem C73_mixin_refuted : ∃ m, newPlugin ([(str! "interval", .int 0)] :: onTheFly) [(str! "register_step", .bound 1)] = .ok m ∧
    ∀ counter, stepAnalysed m counter = .error .ZeroDivisionError :=
  ⟨_, rfl, fun _ => rfl⟩

/-- **C73** A method that always raises can be called, so a plugin may keep it, as the interface itself does; the
error is then the one of the method. -/
theorem C73_raiser (bases : Mro) (attrs : Dict Str ClassAttr) (hi : get? attrs (str! "interval") = none)
    (hm : ∀ name ∈ pluginMethods, get? attrs name = some .raiser) :
    (∃ m, newPlugin bases attrs = .ok m ∧ ∀ name ∈ pluginMethods, callMethod m name = .error .NotImplementedError) ∧
    ∀ name ∈ pluginMethods, callMethod onTheFly name = .error .NotImplementedError := by
  refine ⟨?_, by decide⟩
  obtain ⟨m, h⟩ := (C73_accepted bases attrs).1.mpr ⟨fun v hv => (by rw [hi] at hv; cases hv), fun name hn v hv => (by
    have := hv.1
    rw [hm name hn] at this
    cases this; rfl)⟩
  refine ⟨m, h, fun name hn => ?_⟩
  have := ((newPlugin_lookup h).2.1 name hn).1 _ ⟨hm name hn, by simp⟩
  unfold callMethod
  rw [this.1]

example : ∃ m, newPlugin onTheFly [(str! "setup", .raiser), (str! "register_step", .raiser), (str! "finalize", .raiser)] = .ok m ∧
    callMethod m (str! "setup") = .error .NotImplementedError := by
  obtain ⟨⟨m, h1, h2⟩, -⟩ := C73_raiser onTheFly [(str! "setup", .raiser), (str! "register_step", .raiser), (str! "finalize", .raiser)]
    (by decide) (by decide)
  exact ⟨m, h1, h2 _ (by decide)⟩

/-! ### The theorems at these cases -/

example := C73_methods onTheFly _ exCounter rfl (str! "register_step") (by decide) 7 rfl

example := C73_total onTheFly _ exCounter rfl (str! "finalize") (by decide) (by decide)

example := C73_interval_partial [exCounter, exFinal] _ rfl

example := C73_steps_partial [exCounter, exFinal] _ rfl

example := C73_inherited_refuted onTheFly _ exCounter rfl (str! "finalize") (by decide) rfl

end Verif
