import Verif.Lemmas.TestManager
/-!
# A test and its tasks (C55, C56)

`history timeout evs` is the state after a test was started and the events `evs` happened: tasks being
created, tasks ending (by returning, raising, `end_test` or being cancelled), tasks being killed by other
tasks, the timeout, and cancellation from outside. Every event that stops the test carries a `script`: what
each task that is then cancelled does in its cleanup code. `log` is what was observed, `completed` how often
the completion callback ran, and `verdict` what `exception()` was computed from.
-/
namespace Verif

open TestMgr

/-- Cleanup code that does nothing. -/
private def plain : Nat → Cleanup := fun _ => ⟨[], none, false, false⟩

/-- The completion callback never runs more than once. -/
theorem C55_once (timeout : Bool) (evs : List Ev) : (history timeout evs).completed ≤ 1 :=
  (history_inv timeout evs).1.le

/-- When it runs, every task of the test has ended, and no new one can be created. -/
theorem C55_all_done (timeout : Bool) (evs : List Ev) (h : (history timeout evs).completed = 1) :
    AllEnded (history timeout evs) ∧ step .create (history timeout evs) = history timeout evs := by
  obtain ⟨hi, hs⟩ := history_inv timeout evs
  obtain ⟨a, b, -⟩ := hi.one h
  refine ⟨fun t ht => ?_, ?_⟩
  · rcases hi.core.acct hs t ht with hm | hm
    · rw [a] at hm; cases hm
    · exact hm
  · simp [step, createTask, b]

example : (history true [.create, .create, .ends ⟨1, .failed 7, false, false⟩ plain]).completed = 1 ∧
    (history true [.create, .create, .ends ⟨1, .failed 7, false, false⟩ plain]).next = 3 ∧
    (history true [.create, .create, .ends ⟨1, .failed 7, false, false⟩ plain]).log =
      [.ended ⟨1, .failed 7, false, false⟩, .ended ⟨0, .cancelled, false, false⟩,
       .ended ⟨2, .cancelled, false, false⟩] := by decide

/-- It runs only if something ended the test. -/
theorem C55_only_if_ended (timeout : Bool) (evs : List Ev) (h : (history timeout evs).completed = 1)
    (hj : ∀ o ∈ (history timeout evs).log, NoJoin o) : ∃ o ∈ (history timeout evs).log, EndsTest o := by
  obtain ⟨hi, -⟩ := history_inv timeout evs
  have hf : (history timeout evs).finishing = true := by
    cases hf : (history timeout evs).finishing with
    | true => rfl
    | false => rw [(hi.notFin hf).1] at h; cases h
  obtain ⟨o, ho, hs⟩ := (history_fin timeout evs).1 hf
  exact ⟨o, ho, (stops_endsTest (hj o ho)).1 hs⟩

example : (history true [.create, .ends ⟨1, .failed 7, true, false⟩ plain, .timeout plain]).completed = 1 ∧
    ∀ o ∈ (history true [.create, .ends ⟨1, .failed 7, true, false⟩ plain, .timeout plain]).log, NoJoin o := by
  refine ⟨by decide, ?_⟩
  show ∀ o ∈ [Obs.ended ⟨1, .failed 7, true, false⟩, .timedOut, .ended ⟨0, .cancelled, false, false⟩], NoJoin o
  simp [NoJoin]

/-- As long as nothing has ended the test it is not complete and goes on: tasks can be created. -/
theorem C55_goes_on (timeout : Bool) (evs : List Ev)
    (hj : ∀ o ∈ (history timeout evs).log, NoJoin o)
    (h : ∀ o ∈ (history timeout evs).log, ¬ EndsTest o) : (history timeout evs).completed = 0 := by
  have := C55_once timeout evs
  by_cases h1 : (history timeout evs).completed = 1
  · obtain ⟨o, ho, he⟩ := C55_only_if_ended timeout evs h1 hj
    exact absurd he (h o ho)
  · omega

example : (history true [.create, .create, .ends ⟨1, .returned, false, false⟩ plain]).log =
    [.ended ⟨1, .returned, false, false⟩] ∧ ¬ EndsTest (.ended ⟨1, .returned, false, false⟩) := by
  exact ⟨by decide, by simp [EndsTest]⟩

/-- The claim: as soon as the test is ended, all its tasks are ended and it is complete. -/
def C55_shutdown_full : Prop :=
  ∀ timeout evs, (∃ o ∈ (history timeout evs).log, EndsTest o) → (history timeout evs).completed = 1

/-- It fails if a task kills the main task: the task that does so is running, cannot be cancelled, and the
shutdown is abandoned for good - also after that task has ended and after the test is cancelled. -/
theorem C55_shutdown_counterexample_kill : ¬ C55_shutdown_full := by
  intro h
  have h1 := h false [.create, .kill 1 0 false false plain, .ends ⟨1, .returned, false, false⟩ plain, .cancel plain]
    ⟨.cancelled, by decide, trivial⟩
  revert h1
  decide

/-- It fails if a task starts another task while it is being cancelled: that one is not cancelled, and the
test is not complete before it ends. -/
theorem C55_shutdown_counterexample_create : ¬ C55_shutdown_full := by
  intro h
  have h1 := h false [.create, .ends ⟨0, .returned, false, false⟩ (fun _ => ⟨[.create], none, false, false⟩)]
    ⟨.ended ⟨0, .returned, false, false⟩, by decide, .inl rfl⟩
  revert h1
  decide

/-- Otherwise the claim holds. (Missing for the full claim: a task killing the main task, and tasks started
by cleanup code.) -/
theorem C55_shutdown_partial (timeout : Bool) (evs : List Ev) (hq : ∀ ev ∈ evs, Quiet ev)
    (hk : ∀ ev ∈ evs, ¬ KillsMain ev) (h : ∃ o ∈ (history timeout evs).log, EndsTest o) :
    (history timeout evs).completed = 1 ∧ AllEnded (history timeout evs) := by
  obtain ⟨o, ho, he⟩ := h
  have hf := (history_fin timeout evs).2 ⟨o, ho, endsTest_stops he⟩
  have h1 : (history timeout evs).completed = 1 := by
    rcases history_live timeout hk hf with ⟨hw, -⟩ | h
    · rw [(history_settled timeout hq).1] at hw; cases hw
    · exact h
  exact ⟨h1, (C55_all_done timeout evs h1).1⟩

example : (∀ ev ∈ [Ev.create, .create, .kill 1 2 false false plain, .ends ⟨1, .endTest, false, false⟩ plain], Quiet ev) ∧
    (∀ ev ∈ [Ev.create, .create, .kill 1 2 false false plain, .ends ⟨1, .endTest, false, false⟩ plain], ¬ KillsMain ev) ∧
    Obs.ended ⟨1, .endTest, false, false⟩ ∈
      (history true [.create, .create, .kill 1 2 false false plain, .ends ⟨1, .endTest, false, false⟩ plain]).log := by
  refine ⟨by simp [Quiet, plain], by simp [KillsMain], by decide⟩

/-- If cleanup code starts tasks, the test is complete as soon as those have ended too. -/
theorem C55_shutdown_late (timeout : Bool) (evs : List Ev) (hk : ∀ ev ∈ evs, ¬ KillsMain ev)
    (h : ∃ o ∈ (history timeout evs).log, EndsTest o) (hleft : (history timeout evs).tasks = []) :
    (history timeout evs).completed = 1 ∧ AllEnded (history timeout evs) := by
  obtain ⟨o, ho, he⟩ := h
  have hf := (history_fin timeout evs).2 ⟨o, ho, endsTest_stops he⟩
  have h1 : (history timeout evs).completed = 1 := by
    rcases history_live timeout hk hf with ⟨-, hn⟩ | h
    · exact absurd hleft hn
    · exact h
  exact ⟨h1, (C55_all_done timeout evs h1).1⟩

/-- Task 2 is started while task 1 is cancelled, and ends later. -/
private def late : List Ev :=
  [.create, .ends ⟨0, .returned, false, false⟩ (fun _ => ⟨[.create], none, false, false⟩),
   .ends ⟨2, .returned, false, false⟩ plain]

example : (∀ ev ∈ late, ¬ KillsMain ev) ∧ Obs.ended ⟨0, .returned, false, false⟩ ∈ (history true late).log ∧
    (history true late).tasks = [] ∧ (history true late).next = 3 := by
  refine ⟨by simp [late, KillsMain], by decide, by decide, by decide⟩

/-- The test is ended by what the documentation says, and by nothing else: the end of the main task, another
task failing or calling `end_test` with nobody waiting for it, the timeout, or a cancellation. In particular a
task that returns, that is cancelled, or that fails while another task waits for it does not end it. -/
theorem C55_ended_by (timeout : Bool) (evs : List Ev) (hq : ∀ ev ∈ evs, Quiet ev) (hk : ∀ ev ∈ evs, ¬ KillsMain ev)
    (hj : ∀ o ∈ (history timeout evs).log, NoJoin o) :
    (history timeout evs).completed = 1 ↔ ∃ o ∈ (history timeout evs).log, EndsTest o :=
  ⟨fun h => C55_only_if_ended timeout evs h hj, fun h => (C55_shutdown_partial timeout evs hq hk h).1⟩

/-- When the time of a test's timeout is reached while the test still runs, the test is ended by it, if (and only
if) it was started with one. -/
theorem C55_timeout (timeout : Bool) (evs : List Ev) (script : Nat → Cleanup)
    (hj : ∀ o ∈ (history timeout evs).log, NoJoin o) (hr : ∀ o ∈ (history timeout evs).log, ¬ EndsTest o) :
    Obs.timedOut ∈ (history timeout (evs ++ [.timeout script])).log ↔ timeout = true := by
  have hnf : (history timeout evs).finishing = false := by
    cases hf : (history timeout evs).finishing with
    | false => rfl
    | true =>
      obtain ⟨o, ho, hs⟩ := (history_fin timeout evs).1 hf
      exact absurd ((stops_endsTest (hj o ho)).1 hs) (hr o ho)
  have ha : (history timeout evs).armed = timeout := history_arm timeout evs hnf
  obtain ⟨hi, hst⟩ := history_inv timeout evs
  have he : history timeout (evs ++ [.timeout script]) = step (.timeout script) (history timeout evs) := by
    unfold history
    rw [run_append]; rfl
  rw [he]
  cases timeout with
  | true =>
    have : step (.timeout script) (history true evs) =
        abort none (some simTimeout) script (observe .timedOut { history true evs with armed := false }) := by
      simp only [step, ha, if_true]
    rw [this]
    obtain ⟨-, ⟨l, g⟩, -⟩ := signal_facts (exc := simTimeout) (o := .timedOut) (script := script) hi hst (.inr rfl)
    rw [g]
    simp
  | false =>
    have : step (.timeout script) (history false evs) = history false evs := by
      simp only [step, ha]
      simp
    rw [this]
    refine ⟨fun h => absurd ?_ (hr _ h), fun h => by cases h⟩
    trivial

example : (∀ o ∈ (history true [.create, .ends ⟨1, .returned, false, false⟩ plain]).log, NoJoin o ∧ ¬ EndsTest o) ∧
    (history true ([.create, .ends ⟨1, .returned, false, false⟩ plain] ++ [.timeout plain])).verdict =
      some [simTimeout] := by
  refine ⟨?_, by decide⟩
  intro o ho
  have : (history true [.create, .ends ⟨1, .returned, false, false⟩ plain]).log =
    [.ended ⟨1, .returned, false, false⟩] := by decide
  rw [this] at ho
  simp only [List.mem_singleton] at ho
  subst ho
  simp [NoJoin, EndsTest]

/-- The claim about the verdict: it consists of the unhandled failures up to completion. After that nothing
but further cancellations from outside can be observed. -/
def C56_verdict_full : Prop :=
  ∀ timeout evs, (history timeout evs).completed = 1 →
    ∃ l before after, (history timeout evs).verdict = some l ∧ (history timeout evs).log = before ++ after ∧
      l = failures before ∧ ∀ o ∈ after, o = .cancelled

/-- It fails for a task that is only waited for through the deprecated `join()`: its failure counts as
unhandled, although another task is waiting for it. -/
theorem C56_verdict_counterexample_join : ¬ C56_verdict_full := by
  intro h
  obtain ⟨l, b, a, h1, h2, h3, h4⟩ := h false [.create, .ends ⟨1, .failed 7, false, true⟩ plain] (by decide)
  have hl : l = [7] := by
    have : (history false [.create, .ends ⟨1, .failed 7, false, true⟩ plain]).verdict = some [7] := by decide
    rw [this] at h1; exact (Option.some.inj h1).symm
  have hlog : b ++ a = [.ended ⟨1, .failed 7, false, true⟩, .ended ⟨0, .cancelled, false, false⟩] := by
    rw [← h2]; decide
  have hb : List.Sublist (b.filterMap unhandled) ((b ++ a).filterMap unhandled) := by
    rw [List.filterMap_append]; exact List.sublist_append_left _ _
  rw [hlog] at hb
  have : [Obs.ended ⟨1, .failed 7, false, true⟩, .ended ⟨0, .cancelled, false, false⟩].filterMap unhandled = [] := by
    decide
  rw [this] at hb
  have hbn := List.sublist_nil.1 hb
  unfold failures at h3
  rw [hbn, hl] at h3
  cases h3

/-- It fails if the last task that is left fails after the main task has ended: the failure is not in the
verdict. -/
theorem C56_verdict_counterexample_late : ¬ C56_verdict_full := by
  intro h
  obtain ⟨l, b, a, h1, h2, h3, h4⟩ := h false
    [.create, .ends ⟨0, .returned, false, false⟩ (fun _ => ⟨[.create], none, false, false⟩),
     .ends ⟨2, .failed 7, false, false⟩ plain] (by decide)
  have hl : l = [] := by
    have : (history false [.create, .ends ⟨0, .returned, false, false⟩ (fun _ => ⟨[.create], none, false, false⟩),
     .ends ⟨2, .failed 7, false, false⟩ plain]).verdict = some [] := by decide
    rw [this] at h1; exact (Option.some.inj h1).symm
  have hlog : b ++ a = [.ended ⟨0, .returned, false, false⟩, .ended ⟨1, .cancelled, false, false⟩,
      .ended ⟨2, .failed 7, false, false⟩] := by
    rw [← h2]; decide
  have ha : a = [] := by
    rcases List.eq_nil_or_concat a with rfl | ⟨a', o, rfl⟩
    · rfl
    · exfalso
      have ho := h4 o (by simp)
      subst ho
      have := congrArg List.getLast? hlog
      simp at this
  subst ha
  rw [List.append_nil] at hlog
  rw [hlog, hl] at h3
  revert h3
  decide

/-- Otherwise it holds. (Missing for the full claim: tasks waited for through `join()`, and tasks started by
cleanup code.) -/
theorem C56_verdict_partial (timeout : Bool) (evs : List Ev) (hq : ∀ ev ∈ evs, Quiet ev)
    (hj : ∀ o ∈ (history timeout evs).log, NoJoin o) (h : (history timeout evs).completed = 1) :
    ∃ l before after, (history timeout evs).verdict = some l ∧ (history timeout evs).log = before ++ after ∧
      l = failures before ∧ ∀ o ∈ after, o = .cancelled := by
  obtain ⟨l, b, a, h1, h2, h3, h4⟩ := (history_settled timeout hq).2 h
  refine ⟨l, b, a, h1, h2, ?_, h4⟩
  rw [h3]
  exact counted_failures fun o ho => hj o (by rw [h2]; exact List.mem_append_left _ ho)

/-- Task 1 fails, and cleaning up task 2 fails too; the main task is cancelled. -/
private def messy : List Ev :=
  [.create, .create, .ends ⟨1, .failed 7, false, false⟩
    (fun t => if t = 2 then ⟨[], some 8, false, false⟩ else ⟨[], none, false, false⟩), .cancel plain]

example : (∀ ev ∈ messy, Quiet ev) ∧ (∀ o ∈ (history true messy).log, NoJoin o) ∧
    (history true messy).completed = 1 ∧ (history true messy).verdict = some [7, 8] := by
  refine ⟨?_, ?_, by decide, by decide⟩
  · simp only [messy, List.mem_cons, List.not_mem_nil, or_false]
    rintro ev (rfl | rfl | rfl | rfl)
    · trivial
    · trivial
    · intro t; dsimp only; split <;> simp
    · intro t; simp [plain]
  · have : (history true messy).log = [.ended ⟨1, .failed 7, false, false⟩, .ended ⟨0, .cancelled, false, false⟩,
        .ended ⟨2, .failed 8, false, false⟩, .cancelled] := by decide
    rw [this]; simp [NoJoin]

/-- `exception()` for a list of failures: nothing, the failure itself, or the group of all of them. -/
theorem C56_exception (l : List Exc) : Reports l (exception l) := by
  match l with
  | [] => rfl
  | [e] => rfl
  | a :: b :: l => rfl

example : exception [] = .nothing ∧ exception [7] = .one 7 ∧ exception [7, 8] = .group [7, 8] := by decide

/-- A test passes exactly if no unhandled failure was observed up to its completion. -/
theorem C56_pass (timeout : Bool) (evs : List Ev) (hq : ∀ ev ∈ evs, Quiet ev)
    (hj : ∀ o ∈ (history timeout evs).log, NoJoin o) (h : (history timeout evs).completed = 1) :
    ∃ l before after, (history timeout evs).verdict = some l ∧ (history timeout evs).log = before ++ after ∧
      (∀ o ∈ after, o = .cancelled) ∧
      (exception l = .nothing ↔ ∀ o ∈ before, unhandled o = none) := by
  obtain ⟨l, b, a, h1, h2, h3, h4⟩ := C56_verdict_partial timeout evs hq hj h
  refine ⟨l, b, a, h1, h2, h4, ?_⟩
  subst h3
  have hx : exception (failures b) = .nothing ↔ failures b = [] := by
    unfold exception
    by_cases e : failures b = []
    · simp [e]
    · simp only [e, ne_eq, not_false_eq_true, if_true, iff_false]
      split <;> simp
  rw [hx]
  unfold failures
  simp [List.filterMap_eq_nil_iff]

/-- A task that is awaited does not fail the test by failing, and a task that is cancelled does not either. -/
theorem C56_handled (timeout : Bool) (evs : List Ev) (hq : ∀ ev ∈ evs, Quiet ev)
    (hj : ∀ o ∈ (history timeout evs).log, NoJoin o) (h : (history timeout evs).completed = 1)
    (hn : ∀ o ∈ (history timeout evs).log, ∃ x, o = .ended x ∧
      (x.end_ = .returned ∨ x.end_ = .endTest ∨ x.end_ = .cancelled ∨ (x.task ≠ 0 ∧ x.awaited = true))) :
    ∃ l, (history timeout evs).verdict = some l ∧ exception l = .nothing := by
  obtain ⟨l, b, a, h1, h2, -, h4⟩ := C56_pass timeout evs hq hj h
  refine ⟨l, h1, h4.2 fun o ho => ?_⟩
  obtain ⟨x, rfl, hx⟩ := hn o (by rw [h2]; exact List.mem_append_left _ ho)
  unfold unhandled
  rcases hx with hx | hx | hx | ⟨h0, ha⟩
  · simp [hx]
  · simp [hx]
  · simp [hx]
  · cases he : x.end_ <;> simp [he, h0, ha]

/-- Task 1 fails while the main task awaits it; the main task handles that and returns. -/
private def handled : List Ev :=
  [.create, .create, .ends ⟨1, .failed 7, true, false⟩ plain, .ends ⟨0, .returned, false, false⟩ plain]

example : (∀ ev ∈ handled, Quiet ev) ∧ (history true handled).completed = 1 ∧
    (history true handled).log = [.ended ⟨1, .failed 7, true, false⟩, .ended ⟨0, .returned, false, false⟩,
      .ended ⟨2, .cancelled, false, false⟩] := by
  refine ⟨by simp [handled, Quiet, plain], by decide, by decide⟩

end Verif
