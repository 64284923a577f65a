import Verif.Lemmas.PytestFin
/-!
# Properties of sessions of the pytest plugin
-/
namespace Verif
open Verif.Pytest

/-- A session nothing interferes with. -/
def Pytest.quiet (seed : Nat) : Cfg := ⟨seed, fun _ => false, fun _ => false, false, false⟩

theorem Pytest.quiet_clean (seed : Nat) : Clean (quiet seed) := ⟨fun _ => rfl, fun _ => rfl, rfl, rfl⟩

/-- Two tests: the first with a plain fixture (1, torn down by 2), a coroutine fixture (3) and a generator fixture (4, torn
down by 5) that is kept until the end of the second test; the second fails. -/
def Pytest.sample : List Item :=
  [⟨7, [.sync ⟨1, .passed, 2⟩ (some ⟨2, .passed, 0⟩) 0, .afun ⟨3, .passed, 1⟩,
      .agen ⟨4, .passed, 0⟩ [.alive] ⟨5, .passed, 3⟩ 2], .passed, some ⟨6, .passed, 4⟩⟩,
   ⟨8, [.sync ⟨10, .passed, 0⟩ none 0], .passed, some ⟨11, .failed, 1⟩⟩]

/-! ### C98: reports -/

/-- A session nothing interferes with ends, and every test is announced, reports its setup, reports its call exactly if the
setup passed, reports its teardown and is announced as finished, in the order of collection and without overlap; then
the session is finished and the simulator told to stop. -/
theorem C98_complete {c : Cfg} (h : Clean c) (items : List Item) :
    ∃ n f, ∀ m, n ≤ m → log (run c items (List.replicate m .done)).trace = sessionLog f items := by
  obtain ⟨n, hn⟩ := run_over c items h.2.2.2
  obtain ⟨f, hf⟩ := log_sessionTrace c.seed items
  refine ⟨n, f, fun m hm => ?_⟩
  have hp := clean_prefix h items (List.replicate m .done)
  rcases (hn m hm).2.2 with e | ⟨-, -, hst, -⟩
  · rw [e, hf]
  · have hs : Event.shutdown ∈ (run c items (List.replicate m .done)).trace := by
      rcases hst with hst | ⟨b, hb⟩ | hst
      · exact hst
      · rw [h.1] at hb; cases hb
      · rw [h.1] at hst; cases hst
    have hnot : Event.shutdown ∉ beforeEnd c.seed items ++ [.sessionfinish false, .unconfigure] := by
      intro hc
      simp only [List.mem_append, List.mem_cons, List.not_mem_nil, or_false] at hc
      rcases hc with hc | hc | hc
      · simp only [beforeEnd, List.mem_append, List.mem_cons, List.not_mem_nil, or_false] at hc
        rcases hc with (hc | hc) | hc
        · cases hc
        · cases hc
        · obtain ⟨k, hk, -⟩ := session_ge hc; cases hk
      · cases hc
      · cases hc
    have e : sessionTrace c.seed items = (beforeEnd c.seed items ++ [.sessionfinish false, .unconfigure]) ++ .shutdown :: [] := by
      rw [sessionTrace_eq]; simp
    rw [e] at hp
    have := prefix_of_mem hp hs hnot
    have e' := List.IsPrefix.eq_of_length hp (Nat.le_antisymm hp.length_le this.length_le)
    rw [e', ← e, hf]

/-- Whatever interferes (hooks that raise, code that leaves with `Exit`, errors during collection) and whenever the simulation
ends: what was reported so far is the beginning of the same complete session, possibly followed by the end of a
session with an error. Nothing is reported twice, out of order, or for another test. -/
theorem C98_prefix (c : Cfg) (items : List Item) (hc : c.collectOnly = false) :
    ∃ f, ∀ ins, ∃ t e, log (run c items ins).trace = t ++ e ∧ t <+: sessionLog f items ∧ e <+: ending true := by
  obtain ⟨f, hf⟩ := log_sessionTrace c.seed items
  refine ⟨f, fun ins => ?_⟩
  obtain ⟨-, t, e, h1, h2, h3⟩ := run_cut c items ins hc
  refine ⟨log t, log e, by rw [h1, log_append], by rw [← hf]; exact log_prefix h2, ?_⟩
  have : log e <+: log (ending true) := log_prefix h3
  exact this

/-- With `--collect-only` nothing is run or reported. -/
theorem C98_collect_only {c : Cfg} (h : ∀ e, c.raises e = false) (he : c.collectErrors = false) (hc : c.collectOnly = true)
    (items : List Item) (ins : List Input) :
    (run c items ins).trace = [.sessionstart, .collection] ++ ending false := by
  have hs : (startRegression c items).trace = [.sessionstart, .collection] ++ ending false ∧
      (startRegression c items).running = none := by
    simp [startRegression, emit, h, R.bind, runtestloop, he, hc, finishSession, init, finishOnException, ending]
  rw [run, play_dones, dones_idle _ _ hs.2]
  exact hs.1

/-- The sample session: what is reported. -/
example : log (run (quiet 0) sample (List.replicate 5 .done)).trace =
    [.sessionstart, .collection, .start 1, .report 1 .setup .passed, .report 1 .call .passed, .report 1 .teardown .passed,
      .finish 1, .start 2, .report 2 .setup .passed, .report 2 .call .failed, .report 2 .teardown .passed, .finish 2,
      .sessionfinish false, .unconfigure, .shutdown] := by decide +kernel

/-- The same session, where the second test leaves with `Exit`. -/
example : log (run { quiet 0 with exits := (· = 11) } sample (List.replicate 5 .done)).trace =
    [.sessionstart, .collection, .start 1, .report 1 .setup .passed, .report 1 .call .passed, .report 1 .teardown .passed,
      .finish 1, .start 2, .report 2 .setup .passed, .sessionfinish true, .unconfigure, .shutdown] := by decide +kernel

/-! ### C99: failures -/

/-- The full claim: if any code of a test fails (a fixture's setup or teardown, or the test function), then a phase of
that test is reported as failed. -/
def C99_failures_full : Prop :=
  ∀ (c : Cfg) (items : List Item) (ins : List Input), Clean c → Over (run c items ins).trace →
    ∀ i w st g, .code i w st g ∈ (run c items ins).trace → st.outcome = .failed →
      ∃ w', .report i w' .failed ∈ (run c items ins).trace

/-- Of several asynchronous teardowns only the last is reported: if another fails, the test passes. -/
theorem C99_failures_counterexample : ¬ C99_failures_full := by
  intro h
  have := h (quiet 0)
    [⟨7, [.agen ⟨1, .passed, 0⟩ [] ⟨2, .passed, 0⟩ 0, .agen ⟨3, .passed, 0⟩ [] ⟨4, .failed, 0⟩ 0], .passed,
      some ⟨5, .passed, 0⟩⟩] (List.replicate 5 .done) (quiet_clean 0) ⟨false, by decide +kernel⟩ 1 .teardown ⟨4, .failed, 0⟩
    ⟨none, 0⟩ (by decide +kernel) rfl
  obtain ⟨w', hw⟩ := this
  cases w' <;> exact absurd hw (by decide +kernel)

/-- The failure of a plain fixture's teardown is lost too, if an asynchronous fixture is torn down with it. -/
theorem C99_failures_counterexample_plain :
    let tr := (run (quiet 0)
      [⟨7, [.sync ⟨1, .passed, 0⟩ (some ⟨2, .failed, 0⟩) 0, .agen ⟨3, .passed, 0⟩ [] ⟨4, .passed, 0⟩ 0], .passed,
        some ⟨5, .passed, 0⟩⟩] (List.replicate 3 .done)).trace
    Over tr ∧ .code 1 .teardown ⟨2, .failed, 0⟩ ⟨none, 0⟩ ∈ tr ∧ ∀ i w, .report i w .failed ∉ tr := by
  refine ⟨⟨false, by decide +kernel⟩, by decide +kernel, ?_⟩
  intro i w hm
  have : ∀ e ∈ (run (quiet 0)
      [⟨7, [.sync ⟨1, .passed, 0⟩ (some ⟨2, .failed, 0⟩) 0, .agen ⟨3, .passed, 0⟩ [] ⟨4, .passed, 0⟩ 0], .passed,
        some ⟨5, .passed, 0⟩⟩] (List.replicate 3 .done)).trace,
      (match e with | .report _ _ o => decide (o = .failed) | _ => false) = false := by decide +kernel
  have := this _ hm
  simp at this

/-- Failures of setups and test functions are always reported, that of a teardown if it is the last of its test or if there
are only plain fixtures. -/
theorem C99_failures_partial {c : Cfg} {items : List Item} {ins : List Input} (h : Clean c)
    (ho : Over (run c items ins).trace) {i : Nat} {w : When} {st : Step} {g : Rng}
    (hm : .code i w st g ∈ (run c items ins).trace) (hf : st.outcome = .failed)
    (hw : w ≠ .teardown ∨ (codes i .teardown (run c items ins).trace).getLast? = some st ∨
      ∀ it ∈ items, ∀ f ∈ it.fixtures, f.isSync = true) :
    ∃ w', .report i w' .failed ∈ (run c items ins).trace := by
  obtain ⟨k, it, rfl, hk⟩ := over_find h ho hm rfl
  have hbad : st.outcome ≠ .passed := by rw [hf]; simp
  obtain ⟨A, B, live, g', last, h1, h2, h3, -, hlive⟩ := over_item' h ho hk
    (fun l => (∀ it ∈ items, ∀ f ∈ it.fixtures, f.isSync = true) → ∀ f ∈ l, f.async = false) (by simp)
    (by
      intro it hit i last live g hl hs f hf
      have hf := leaves_live_sub hf
      rw [Item.fins, armAll_eq] at hf
      obtain ⟨y, hy, rfl⟩ := List.mem_map.mp hf
      have : y.async = false := by
        rcases List.mem_append.mp hy with hy | hy
        · obtain ⟨x, hx, hxy⟩ := List.mem_filterMap.mp (List.mem_reverse.mp hy)
          rw [(fin?_fields hxy).2.2.2, hs it hit x (reached_sub hx)]; rfl
        · exact hl hs y hy
      split <;> exact this)
  have hcodes := codes_leaves c.seed (k + 1) last it live g'
  have hc := mem_codes hm
  have hmem : ∀ e, e ∈ (it.leaves c.seed (k + 1) last live g').events → e ∈ (run c items ins).trace := by
    intro e he; rw [h1]; simp [he]
  have hcw : ∀ w, codes (k + 1) w (run c items ins).trace =
      codes (k + 1) w (it.leaves c.seed (k + 1) last live g').events := by
    intro w
    rw [h1]
    simp only [codes_append, codes_other h2, codes_other h3, List.nil_append, List.append_nil]
  cases w with
  | setup =>
    rw [hcw, hcodes.1] at hc
    have := mem_untilBad hc hbad
    exact ⟨.setup, hmem _ (by simp [Item.leaves, Item.setupResult, this, hf])⟩
  | call =>
    rw [hcw, hcodes.2.1] at hc
    split at hc
    · next hp =>
      refine ⟨.call, hmem _ ?_⟩
      simp only [Option.mem_toList] at hc
      simp [Item.leaves, hp, Item.callResult, hc, hf]
    · cases hc
  | teardown =>
    rw [hcw, hcodes.2.2] at hc
    refine ⟨.teardown, hmem _ ?_⟩
    have goal : teardownResult ((it.fins live).filter fun f => decide (f.till ≤ k + 1) || last) = .failed →
        Event.report (k + 1) .teardown .failed ∈ (it.leaves c.seed (k + 1) last live g').events := by
      intro hr
      simp only [Item.leaves, hr]
      simp
    apply goal
    generalize hdue : ((it.fins live).filter fun f => decide (f.till ≤ k + 1) || last) = due at hc
    have hsync : asyncTeardowns due = [] → teardownResult due = .failed := by
      intro ha
      rw [ha, List.append_nil, syncTeardowns] at hc
      obtain ⟨f, hf', rfl⟩ := List.mem_map.mp hc
      simp only [List.mem_filter, Bool.and_eq_true, Bool.not_eq_true'] at hf'
      simp only [teardownResult, ha, List.getLast?_nil]
      refine combine_failed ?_
      simp only [finOutcomes, List.mem_map, List.mem_filter]
      exact ⟨f, ⟨hf'.1, hf'.2.1⟩, by simp [hf'.2.2, hf]⟩
    rcases hw with hw | hw | hw
    · exact absurd rfl hw
    · rw [hcw, hcodes.2.2, hdue] at hw
      cases ha : (asyncTeardowns due).getLast? with
      | none => exact hsync (List.getLast?_eq_none_iff.mp ha)
      | some t =>
        rw [List.getLast?_append, ha, Option.some_or] at hw
        simp only [Option.some.injEq] at hw
        simp only [teardownResult, ha, hw, hf]
    · apply hsync
      rw [asyncTeardowns, List.map_eq_nil_iff, List.filter_eq_nil_iff]
      intro f hf'
      have hf'' : f ∈ it.fins live := by rw [← hdue] at hf'; exact (List.mem_filter.mp hf').1
      rw [Item.fins, armAll_eq] at hf''
      obtain ⟨y, hy, rfl⟩ := List.mem_map.mp hf''
      have : y.async = false := by
        rcases List.mem_append.mp hy with hy | hy
        · obtain ⟨x, hx, hxy⟩ := List.mem_filterMap.mp (List.mem_reverse.mp hy)
          rw [(fin?_fields hxy).2.2.2, hw it (List.mem_of_getElem? hk) x (reached_sub hx)]; rfl
        · exact hlive hw y hy
      split <;> simp [this]

/-- No false alarms: a phase of a test is reported as failed or skipped only if some of its code failed or was skipped, or
pytest did not get to the test function. -/
theorem C99_no_false_alarm {c : Cfg} {items : List Item} {ins : List Input} (h : Clean c)
    (ho : Over (run c items ins).trace) (hn : NoneFinished items) {k : Nat} {it : Item} (hk : items[k]? = some it)
    {w : When} {o : Outcome} (hm : .report (k + 1) w o ∈ (run c items ins).trace) (hb : o ≠ .passed) :
    (∃ st ∈ codes (k + 1) w (run c items ins).trace, st.outcome ≠ .passed) ∨
      (w = .call ∧ it.body = none ∧ it.callHook = o) := by
  obtain ⟨A, B, live, g', last, h1, h2, h3, -, hlive⟩ := over_item' h ho hk (fun l => ∀ f ∈ l, Sub.finished ∉ f.subs)
    (by simp)
    (by
      intro it hit i last live g hl f hf
      have hf := leaves_live_sub hf
      rw [Item.fins, armAll_eq] at hf
      obtain ⟨y, hy, rfl⟩ := List.mem_map.mp hf
      have : Sub.finished ∉ y.subs := by
        rcases List.mem_append.mp hy with hy | hy
        · obtain ⟨x, hx, hxy⟩ := List.mem_filterMap.mp (List.mem_reverse.mp hy)
          rw [(fin?_fields hxy).2.1]; exact hn it hit x (reached_sub hx)
        · exact hl y hy
      split <;> exact this)
  have hcodes := codes_leaves c.seed (k + 1) last it live g'
  have hcw : codes (k + 1) w (run c items ins).trace =
      codes (k + 1) w (it.leaves c.seed (k + 1) last live g').events := by
    rw [h1]
    simp only [codes_append, codes_other h2, codes_other h3, List.nil_append, List.append_nil]
  have hm' : .report (k + 1) w o ∈ (it.leaves c.seed (k + 1) last live g').events := by
    rw [h1] at hm
    rcases List.mem_append.mp hm with hm | hm
    · rcases List.mem_append.mp hm with hm | hm
      · exact absurd rfl (h2 _ hm)
      · exact hm
    · exact absurd rfl (h3 _ hm)
  have hcode : ∀ {i w' g sts}, Event.report (k + 1) w o ∉ codeEvents i w' g sts := by
    intro i w' g sts hx
    obtain ⟨st, -, g', e⟩ := mem_codeEvents hx
    cases e
  simp only [Item.leaves, List.mem_append, List.mem_singleton, List.mem_cons, List.not_mem_nil, or_false] at hm'
  rw [hcw]
  rcases hm' with ((((hm' | hm') | hm') | hm') | hm') | (hm' | hm')
  · cases hm'
  · exact absurd hm' hcode
  · simp only [Event.report.injEq, true_and] at hm'
    obtain ⟨rfl, rfl⟩ := hm'
    left
    rw [hcodes.1]
    exact result_bad hb
  · split at hm'
    · next hp =>
      rcases List.mem_append.mp hm' with hm' | hm'
      · exact absurd hm' hcode
      · simp only [List.mem_singleton, Event.report.injEq, true_and] at hm'
        obtain ⟨rfl, rfl⟩ := hm'
        rw [hcodes.2.1, if_pos hp]
        cases hbd : it.body with
        | none => right; exact ⟨rfl, rfl, by simp [Item.callResult, hbd]⟩
        | some b => left; exact ⟨b, by simp, by simpa [Item.callResult, hbd] using hb⟩
    · cases hm'
  · exact absurd hm' hcode
  · simp only [Event.report.injEq, true_and] at hm'
    obtain ⟨rfl, rfl⟩ := hm'
    left
    rw [hcodes.2.2]
    generalize hdue : ((it.fins live).filter fun f => decide (f.till ≤ k + 1) || last) = due at hb ⊢
    have hnd : ∀ f ∈ due, Sub.finished ∉ f.subs := by
      intro f hf
      rw [← hdue] at hf
      have hf := (List.mem_filter.mp hf).1
      rw [Item.fins, armAll_eq] at hf
      obtain ⟨y, hy, rfl⟩ := List.mem_map.mp hf
      have : Sub.finished ∉ y.subs := by
        rcases List.mem_append.mp hy with hy | hy
        · obtain ⟨x, hx, hxy⟩ := List.mem_filterMap.mp (List.mem_reverse.mp hy)
          rw [(fin?_fields hxy).2.1]; exact hn it (List.mem_of_getElem? hk) x (reached_sub hx)
        · exact hlive y hy
      split <;> exact this
    cases ha : (asyncTeardowns due).getLast? with
    | some t =>
      simp only [teardownResult, ha] at hb
      exact ⟨t, List.mem_append_right _ (List.mem_of_getLast? ha), hb⟩
    | none =>
      simp only [teardownResult, ha] at hb
      obtain ⟨o, ho, hob⟩ := combine_bad hb
      simp only [finOutcomes, List.mem_map, List.mem_filter] at ho
      obtain ⟨f, ⟨hf, hfa⟩, e⟩ := ho
      rw [if_neg (hnd f hf)] at e
      cases hs : f.async with
      | true => rw [hs, if_pos rfl] at e; exact absurd e.symm hob
      | false =>
        rw [hs, if_neg (by simp)] at e
        refine ⟨f.step, List.mem_append_left _ ?_, by rw [e]; exact hob⟩
        exact List.mem_map.mpr ⟨f, by simp [hf, hfa, hs], rfl⟩
  · cases hm'

/-- The failure of the second test of the sample. -/
example : .code 2 .call ⟨11, .failed, 1⟩ ⟨some 8, 0⟩ ∈ (run (quiet 0) sample (List.replicate 5 .done)).trace ∧
    Over (run (quiet 0) sample (List.replicate 5 .done)).trace := by
  exact ⟨by decide +kernel, false, by decide +kernel⟩

/-! ### C100: teardown code runs exactly once -/

/-- The full claim: when the session is over, the teardown code of every fixture that was set up has run exactly once, and no
other has. -/
def C100_teardown_full : Prop :=
  ∀ (c : Cfg) (items : List Item) (ins : List Input), Clean c → Over (run c items ins).trace → (setupIds items).Nodup →
    (teardowns (run c items ins).trace).Perm (items.flatMap fun it => it.setUp.filterMap (·.teardown?))

/-- The teardown code of a generator fixture does not run if a task started by its setup has ended. -/
theorem C100_teardown_counterexample : ¬ C100_teardown_full := by
  intro h
  have := h (quiet 0) [⟨7, [.agen ⟨1, .passed, 0⟩ [.finished] ⟨2, .passed, 0⟩ 0], .passed, some ⟨5, .passed, 0⟩⟩]
    (List.replicate 3 .done) (quiet_clean 0) ⟨false, by decide +kernel⟩ (by decide)
  exact absurd this.length_eq (by decide +kernel)

/-- It holds, for plain and asynchronous fixtures of all scopes, whichever of them and of the tests fail, if tasks started by
setups of generator fixtures run on until teardown or are cancelled. -/
theorem C100_teardown_partial {c : Cfg} {items : List Item} {ins : List Input} (h : Clean c)
    (ho : Over (run c items ins).trace) (hd : (setupIds items).Nodup) (hn : NoneFinished items) :
    (teardowns (run c items ins).trace).Perm (items.flatMap fun it => it.setUp.filterMap (·.teardown?)) := by
  obtain ⟨x, hx, hxe⟩ := over_trace h ho
  have hxt : teardowns x = [] := by
    simp only [teardowns, List.filterMap_eq_nil_iff]
    intro e he
    have := hxe.mem he
    simp only [ending, List.mem_cons, List.not_mem_nil, or_false] at this
    rcases this with rfl | rfl | rfl <;> rfl
  rw [hx, beforeEnd, teardowns_append, teardowns_append, hxt, List.append_nil]
  show (teardowns (session c.seed 1 items [] ⟨none, 0⟩)).Perm _
  cases items with
  | nil => exact .refl _
  | cons it its =>
    exact session_teardowns c.seed 1 (it :: its) [] ⟨none, 0⟩ (by simp) hd (by simp) (by simp) hn

/-- The sample meets the hypotheses; its teardown steps. -/
example : (setupIds sample).Nodup ∧ teardowns (run (quiet 0) sample (List.replicate 5 .done)).trace =
    [⟨2, .passed, 0⟩, ⟨5, .passed, 3⟩] := by decide +kernel
example : NoneFinished sample := by
  intro it hit f hf
  simp only [sample, List.mem_cons, List.not_mem_nil, or_false] at hit
  rcases hit with rfl | rfl <;> simp only [List.mem_cons, List.not_mem_nil, or_false] at hf
  · rcases hf with rfl | rfl | rfl <;> simp [Fixture.subs]
  · subst hf; simp [Fixture.subs]

/-! ### C101: the order of fixtures -/

/-- The full claim for setups: fixtures are set up in pytest's order, up to the first that fails. -/
def C101_setup_full : Prop :=
  ∀ (c : Cfg) (items : List Item) (ins : List Input), Clean c → Over (run c items ins).trace →
    ∀ k it, items[k]? = some it → codes (k + 1) .setup (run c items ins).trace = untilBad (it.fixtures.map (·.setup))

/-- A plain fixture that comes after an asynchronous one, say because it requests it, is set up before it. -/
theorem C101_setup_counterexample : ¬ C101_setup_full := by
  intro h
  have := h (quiet 0) [⟨7, [.afun ⟨1, .passed, 0⟩, .sync ⟨2, .passed, 0⟩ none 0], .passed, some ⟨5, .passed, 0⟩⟩]
    (List.replicate 2 .done) (quiet_clean 0) ⟨false, by decide +kernel⟩ 0 _ rfl
  exact absurd this (by decide +kernel)

/-- It holds if the plain fixtures of the test come before the asynchronous ones. -/
theorem C101_setup_partial {c : Cfg} {items : List Item} {ins : List Input} (h : Clean c)
    (ho : Over (run c items ins).trace) {k : Nat} {it : Item} (hk : items[k]? = some it) {a b : List Fixture}
    (hab : it.fixtures = a ++ b) (ha : ∀ f ∈ a, f.isSync = true) (hb : ∀ f ∈ b, f.isSync = false) :
    codes (k + 1) .setup (run c items ins).trace = untilBad (it.fixtures.map (·.setup)) := by
  rw [(over_codes h ho hk).1, Item.setupSteps]
  have : it.order = it.fixtures := by
    simp only [Item.order, hab, List.filter_append]
    rw [List.filter_eq_self.mpr ha, List.filter_eq_nil_iff.mpr (by simpa using hb),
      List.filter_eq_nil_iff.mpr (by simpa using ha), List.filter_eq_self.mpr (by simpa using hb)]
    simp
  rw [this]

/-- The full claim for teardowns: fixtures of function scope are torn down in the reverse order of pytest's setup order. -/
def C101_teardown_full : Prop :=
  ∀ (c : Cfg) (items : List Item) (ins : List Input), Clean c → Over (run c items ins).trace →
    (setupIds items).Nodup → NoneFinished items → FunctionScoped items → ∀ k it, items[k]? = some it →
      codes (k + 1) .teardown (run c items ins).trace = (it.setUp.filterMap (·.teardown?)).reverse

/-- A plain fixture requested by a generator fixture is torn down first. -/
theorem C101_teardown_counterexample : ¬ C101_teardown_full := by
  intro h
  have := h (quiet 0)
    [⟨7, [.sync ⟨1, .passed, 0⟩ (some ⟨2, .passed, 0⟩) 0, .agen ⟨3, .passed, 0⟩ [] ⟨4, .passed, 0⟩ 0], .passed,
      some ⟨5, .passed, 0⟩⟩]
    (List.replicate 3 .done) (quiet_clean 0) ⟨false, by decide +kernel⟩ (by decide)
    (by intro it hit f hf
        simp only [List.mem_cons, List.not_mem_nil, or_false] at hit
        subst hit
        simp only [List.mem_cons, List.not_mem_nil, or_false] at hf
        rcases hf with rfl | rfl <;> simp [Fixture.subs])
    (by intro it hit f hf
        simp only [List.mem_cons, List.not_mem_nil, or_false] at hit
        subst hit
        simp only [List.mem_cons, List.not_mem_nil, or_false] at hf
        rcases hf with rfl | rfl <;> rfl) 0 _ rfl
  exact absurd this (by decide +kernel)

/-- It holds for tests whose fixtures are all plain or all asynchronous. -/
theorem C101_teardown_partial {c : Cfg} {items : List Item} {ins : List Input} (h : Clean c)
    (ho : Over (run c items ins).trace) (hd : (setupIds items).Nodup) (hn : NoneFinished items)
    (hs : FunctionScoped items) {k : Nat} {it : Item} (hk : items[k]? = some it)
    (hh : (∀ f ∈ it.fixtures, f.isSync = true) ∨ ∀ f ∈ it.fixtures, f.isSync = false) :
    codes (k + 1) .teardown (run c items ins).trace = (it.setUp.filterMap (·.teardown?)).reverse := by
  have hm : it ∈ items := List.mem_of_getElem? hk
  have hd' : (it.fixtures.map (·.setup.id)).Nodup := by
    clear hk hh ho hn hs
    induction items with
    | nil => cases hm
    | cons x xs ih =>
      simp only [setupIds, List.flatMap_cons, List.nodup_append] at hd
      rcases List.mem_cons.mp hm with rfl | hm
      · exact hd.1
      · exact ih hd.2.1 hm
  rw [over_teardown h ho hs hk, ← armed_own it hd']
  rcases hh with hh | hh
  · exact own_sync hh
  · exact own_async hh (hn it hm)

/-- A test with two generator fixtures. -/
example : codes 1 .teardown (run (quiet 0)
    [⟨7, [.agen ⟨1, .passed, 0⟩ [] ⟨2, .passed, 0⟩ 0, .agen ⟨3, .passed, 0⟩ [] ⟨4, .passed, 0⟩ 0], .passed,
      some ⟨5, .passed, 0⟩⟩] (List.replicate 5 .done)).trace = [⟨4, .passed, 0⟩, ⟨2, .passed, 0⟩] := by decide +kernel

/-! ### C102: the end of the session -/

/-- In any session, the session is finished at most once, pytest is torn down at most once and after that, and the simulator
told to stop at most once and after that. -/
theorem C102_once (c : Cfg) (items : List Item) (ins : List Input) :
    ∃ b, (run c items ins).trace.filter (fun e => decide (e = .sessionfinish true ∨ e = .sessionfinish false ∨
      e = .unconfigure ∨ e = .shutdown)) <+: ending b := by
  obtain ⟨-, b, hb⟩ := run_once c items ins
  refine ⟨b, ?_⟩
  rwa [List.filter_congr (q := (·.isEnd))]
  intro e _
  cases e with
  | sessionfinish x => cases x <;> simp [Event.isEnd]
  | _ => simp [Event.isEnd]

/-- A session that is finished without an error status has run and reported every test, even if hooks or code interfered. -/
theorem C102_status (c : Cfg) (items : List Item) (hc : c.collectOnly = false) :
    ∃ f, ∀ ins, .sessionfinish false ∈ (run c items ins).trace →
      [.sessionstart, .collection] ++ logs f 1 items ++ [.sessionfinish false] <+: log (run c items ins).trace := by
  obtain ⟨f, hf⟩ := C98_prefix c items hc
  refine ⟨f, fun ins hm => ?_⟩
  obtain ⟨t, e, h1, h2, h3⟩ := hf ins
  have hm' : Event.sessionfinish false ∈ log (run c items ins).trace := List.mem_filter.mpr ⟨hm, rfl⟩
  rw [h1] at hm' ⊢
  have ht : Event.sessionfinish false ∈ t := by
    rcases List.mem_append.mp hm' with hm' | hm'
    · exact hm'
    · have := h3.mem hm'
      simp [ending] at this
  have e' : sessionLog f items = ([.sessionstart, .collection] ++ logs f 1 items) ++
      .sessionfinish false :: [.unconfigure, .shutdown] := by simp [sessionLog, ending]
  rw [e'] at h2
  refine (prefix_of_mem h2 ht ?_).trans (List.prefix_append _ _)
  intro hc
  simp only [List.mem_append, List.mem_cons, List.not_mem_nil, or_false] at hc
  rcases hc with (hc | hc) | hc
  · cases hc
  · cases hc
  · exact sessionfinish_logs f items 1 hc

/-- The sample session has this end. -/
example : .sessionfinish false ∈ (run (quiet 0) sample (List.replicate 5 .done)).trace := by decide +kernel

/-- The full claim: in the end the simulator is told to stop. -/
def C102_stop_full : Prop :=
  ∀ (c : Cfg) (items : List Item), c.collectOnly = false →
    ∃ n, ∀ m, n ≤ m → .shutdown ∈ (run c items (List.replicate m .done)).trace

/-- If a plugin raises when the session is finished, the simulator is not stopped. -/
theorem C102_stop_counterexample : ¬ C102_stop_full := by
  intro h
  obtain ⟨n, hn⟩ := h { quiet 0 with raises := fun e => match e with | .sessionfinish _ => true | _ => false } [] rfl
  have := hn n (Nat.le_refl _)
  rw [run, play_dones, dones_idle] at this
  · exact absurd this (by decide +kernel)
  · decide +kernel

/-- It is, whatever else raises and whichever code leaves with `Exit`, if `pytest_sessionfinish` and `pytest_unconfigure` do not
raise. -/
theorem C102_stop_partial (c : Cfg) (items : List Item) (hc : c.collectOnly = false)
    (h1 : ∀ b, c.raises (.sessionfinish b) = false) (h2 : c.raises .unconfigure = false) :
    ∃ n, ∀ m, n ≤ m → .shutdown ∈ (run c items (List.replicate m .done)).trace := by
  obtain ⟨n, hn⟩ := run_over c items hc
  refine ⟨n, fun m hm => ?_⟩
  obtain ⟨hf, hi, -⟩ := hn m hm
  rcases (hi hf).2 with h | ⟨b, h⟩ | h
  · exact h
  · rw [h1] at h; cases h
  · rw [h2] at h; cases h

/-- Such a session: the hook for the report of the first call raises. -/
example : (run { quiet 0 with raises := (· = .report 1 .call .passed) } sample (List.replicate 5 .done)).trace.getLast? =
    some .shutdown := by decide +kernel

/-- The full claim: if the simulation ends before the tests do, the session is finished with what there is. -/
def C102_premature_full : Prop :=
  ∀ (c : Cfg) (items : List Item) (ins : List Input), Clean c → Over (run c items (ins ++ [.simEnd])).trace

/-- Nothing is finished or reported: no summary, no result file. -/
theorem C102_premature_counterexample : ¬ C102_premature_full := by
  intro h
  obtain ⟨b, hb⟩ := h (quiet 0) sample [.done] (quiet_clean 0)
  cases b <;> exact absurd hb (by decide +kernel)

/-! ### C103: random numbers -/

/-- The full claim: the random numbers the code of a test draws depend on the seed and the test only: not on which tests
are selected, their order, or what they draw. -/
def C103_random_full : Prop :=
  ∀ (c c' : Cfg) (items items' : List Item) (ins ins' : List Input), Clean c → Clean c' → c.seed = c'.seed →
    Over (run c items ins).trace → Over (run c' items' ins').trace →
    ∀ k k' it, items[k]? = some it → items'[k']? = some it → (∀ it ∈ items ++ items', ∀ f ∈ it.fixtures, f.till = 0) →
    ∀ w, rngs (k + 1) w (run c items ins).trace = rngs (k' + 1) w (run c' items' ins').trace

/-- The numbers of a fixture's teardown depend on what the teardowns of earlier tests drew. -/
theorem C103_random_counterexample : ¬ C103_random_full := by
  intro h
  have := h (quiet 0) (quiet 0)
    [⟨7, [.sync ⟨1, .passed, 0⟩ (some ⟨2, .passed, 1⟩) 0], .passed, some ⟨3, .passed, 0⟩⟩,
     ⟨8, [.sync ⟨4, .passed, 0⟩ (some ⟨5, .passed, 1⟩) 0], .passed, some ⟨6, .passed, 0⟩⟩]
    [⟨8, [.sync ⟨4, .passed, 0⟩ (some ⟨5, .passed, 1⟩) 0], .passed, some ⟨6, .passed, 0⟩⟩]
    (List.replicate 2 .done) (List.replicate 1 .done) (quiet_clean 0) (quiet_clean 0) rfl ⟨false, by decide +kernel⟩
    ⟨false, by decide +kernel⟩ 1 0 _ rfl rfl
    (by intro it hit f hf
        simp only [List.mem_append, List.mem_cons, List.not_mem_nil, or_false] at hit
        rcases hit with (rfl | rfl) | rfl <;> simp only [List.mem_cons, List.not_mem_nil, or_false] at hf <;>
          (subst hf; rfl)) .teardown
  exact absurd this (by decide +kernel)

/-- It holds for setups and calls, with fixtures of any scope: each piece of code starts with the generator in the same
state. -/
theorem C103_random_partial {c c' : Cfg} {items items' : List Item} {ins ins' : List Input} (h : Clean c) (h' : Clean c')
    (hs : c.seed = c'.seed) (ho : Over (run c items ins).trace) (ho' : Over (run c' items' ins').trace) {k k' : Nat}
    {it : Item} (hk : items[k]? = some it) (hk' : items'[k']? = some it) {w : When} (hw : w ≠ .teardown) :
    rngs (k + 1) w (run c items ins).trace = rngs (k' + 1) w (run c' items' ins').trace := by
  obtain ⟨A, B, live, g, last, h1, h2, h3, -⟩ := over_item h ho hk
  obtain ⟨A', B', live', g', last', h1', h2', h3', -⟩ := over_item h' ho' hk'
  rw [h1, h1']
  simp only [rngs_append, rngs_other h2, rngs_other h3, rngs_other h2', rngs_other h3', List.nil_append, List.append_nil]
  rw [hs]
  exact rngs_leaves _ _ _ _ _ _ _ _ _ _ hw

/-- The second test of the sample, alone and after the first. -/
example : rngs 2 .call (run (quiet 5) sample (List.replicate 5 .done)).trace = [(⟨11, .failed, 1⟩, ⟨some 13, 0⟩)] ∧
    rngs 1 .call (run (quiet 5) sample.tail (List.replicate 1 .done)).trace = [(⟨11, .failed, 1⟩, ⟨some 13, 0⟩)] := by
  decide +kernel

end Verif
