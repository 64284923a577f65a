import Verif.Spec.Sched
import Verif.Lemmas.SchedTrig

/-! Properties of tasks: C28, C29, C31. -/

namespace Verif

open Sched SchedSpec

/-- The phase a task state stands for. -/
def phaseOf : TState → Phase
  | .unstarted => .new
  | .scheduled | .pending => .waiting
  | .running => .running
  | .finished | .errored | .cancelled => .over

theorem phaseOf_over {s : TState} : phaseOf s = .over ↔ s.isDone = true := by
  cases s <;> simp [phaseOf, TState.isDone]

/-- Observations not about `t` do not matter to its life. -/
theorem life_filter (t : Nat) (p : Phase) (l : List Obs) :
    l.foldlM (lifeStep t) p = (l.filter (·.about t)).foldlM (lifeStep t) p := by
  induction l generalizing p with
  | nil => rfl
  | cons o l ih =>
    cases ha : o.about t
    · have : lifeStep t p o = some p := by
        cases o <;> simp_all [lifeStep, Obs.about]
      rw [List.foldlM_cons, this]
      simp [List.filter, ha, ih]
    · simp only [List.filter, ha, List.foldlM_cons]
      congr 1
      funext q
      exact ih q

theorem Sched.TStep.life {a t r r' obs} (h : TStep a t r r' obs) :
    obs.foldlM (lifeStep t) (phaseOf r.state) = some (phaseOf r'.state) := by
  cases h
  case finish s o how hs he =>
    have := phaseOf_over.2 (coroEnd_done he)
    simp only [lifeStep, hs, if_true, List.foldlM_cons, this]
    rfl
  case cancelNow ha hnd hnr =>
    cases hr : r.state <;> simp_all [lifeStep, phaseOf, TState.isDone]
  case kill ha hnd hnr =>
    cases hr : r.state <;> simp_all [lifeStep, phaseOf, TState.isDone]
  all_goals simp_all [lifeStep, phaseOf]

theorem life_append (t : Nat) (l l' : List Obs) :
    life t (l ++ l') = (life t l).bind fun p => l'.foldlM (lifeStep t) p := by
  simp [life, List.foldlM_append]

/-- **C28.** In every history, the observations about a task are a legal life: it is continued
only while waiting (started or suspended, and not yet continued since), so exactly once per wait;
it is never continued, suspended or finished after it is done. -/
theorem C28_resumed_once_per_wait {w : World} (h : Reach w) (t : Nat) :
    life t w.log = some (phaseOf (w.task t).state) := by
  refine h.induct (P := fun w => life t w.log = some (phaseOf (w.task t).state)) rfl ?_
  intro D w w' a r hg hp _ he
  obtain ⟨new, hlog, hT⟩ := hg.tstep he
  rw [hlog, life_append, hp, Option.bind_some, life_filter]
  exact (hT t).life

/-- Number of entries in the event loop's queue that would run task `t`. -/
def queued (w : World) (t : Nat) : Nat :=
  w.queue.countP fun e => e.task == t && !e.cancelled

/-- Number of registrations of task `t` with trigger `g`. -/
def registrations (w : World) (t : Nat) (g : Trig) : Nat :=
  (w.cbs g).countP fun p => p.2 == t

theorem countP_one_of_nodup {α : Type} {p : α → Bool} {l : List α} (x : α) (hx : x ∈ l)
    (hp : p x = true) (hu : ∀ y ∈ l, p y = true → y = x) (hnd : l.Nodup) : l.countP p = 1 := by
  induction l with
  | nil => simp at hx
  | cons a l ih =>
    simp only [List.nodup_cons] at hnd
    by_cases ha : a = x
    · subst ha
      have : l.countP p = 0 := by
        rw [List.countP_eq_zero]
        intro y hy hpy
        exact hnd.1 (hu y (by simp [hy]) hpy ▸ hy)
      simp [this, hp]
    · have hpa : p a = false := by
        cases hpa : p a
        · rfl
        · exact absurd (hu a (by simp) hpa) ha
      have hx' : x ∈ l := by
        rcases List.mem_cons.1 hx with h | h
        · exact absurd h.symm ha
        · exact h
      simp [hpa, ih hx' (fun y hy => hu y (by simp [hy])) hnd.2]

theorem nodup_of_map {α β : Type} {f : α → β} {l : List α} (h : (l.map f).Nodup) : l.Nodup := by
  induction l with
  | nil => simp
  | cons a l ih =>
    simp only [List.map_cons, List.nodup_cons] at h ⊢
    exact ⟨fun hm => h.1 (List.mem_map.2 ⟨a, hm, rfl⟩), ih h.2⟩

theorem eq_of_nodup_map {α β : Type} {f : α → β} {l : List α} (h : (l.map f).Nodup) {x y : α}
    (hx : x ∈ l) (hy : y ∈ l) (he : f x = f y) : x = y := by
  induction l with
  | nil => simp at hx
  | cons a l ih =>
    simp only [List.map_cons, List.nodup_cons] at h
    rcases List.mem_cons.1 hx with rfl | hx <;> rcases List.mem_cons.1 hy with rfl | hy
    · rfl
    · exact absurd (List.mem_map.2 ⟨y, hy, he.symm⟩) h.1
    · exact absurd (List.mem_map.2 ⟨x, ‹_›, he⟩) h.1
    · exact ih h.2 hx hy

/-- **C28.** In every reachable state, a task is queued exactly once if it is scheduled to run and
not at all otherwise. -/
theorem C28_queued_once {w : World} (h : Reach w) (t : Nat) :
    queued w t = if (w.task t).state = .scheduled then 1 else 0 := by
  obtain ⟨D, hg⟩ := h.good
  have ho := hg.inv.ok t (by simp)
  split
  · rename_i hs
    obtain ⟨e, he, h1, h2, h3⟩ := ho.sched hs
    refine countP_one_of_nodup e he (by simp [h1, h2]) ?_ (nodup_of_map hg.inv.qnd)
    intro e' he' hp
    simp only [Bool.and_eq_true, beq_iff_eq, Bool.not_eq_true'] at hp
    have := (ho.live e' he' hp.1 hp.2).2
    rw [h3] at this
    exact eq_of_nodup_map hg.inv.qnd he' he (by simpa using this.symm)
  · rename_i hs
    unfold queued
    rw [List.countP_eq_zero]
    intro e he hp
    simp only [Bool.and_eq_true, beq_iff_eq, Bool.not_eq_true'] at hp
    exact hs (ho.live e he hp.1 hp.2).1

/-- C28 for registrations, in full: a waiting task is registered exactly once, with one trigger;
any other task not at all. -/
def C28_registered_once_full : Prop :=
  ∀ w, Reach w → ∀ t,
    ((w.task t).state = .pending →
      ∃ g, registrations w t g = 1 ∧ ∀ g', g' ≠ g → registrations w t g' = 0) ∧
    ((w.task t).state ≠ .pending → ∀ g, registrations w t g = 0)

/-- A task awaits a trigger the simulator refuses to arm: the registration is left behind. -/
theorem C28_registered_once_counterexample : ¬ C28_registered_once_full := by
  intro h
  have hr : Reach ((run init [.enter, .startSoon 0, .pop, .await (.gpi 0) true]).getD init) :=
    ⟨[.enter, .startSoon 0, .pop, .await (.gpi 0) true], rfl⟩
  have := (h _ hr 0).2 (by decide) (.gpi 0)
  revert this
  decide

/-- **C28, partial**: proved for all histories in which the simulator never refuses to arm a
callback. Missing: histories where it does, in which it is false (see the counterexample). -/
theorem C28_registered_once_partial {w : World} (h : ReachOk w) (t : Nat) :
    ((w.task t).state = .pending →
      ∃ g, registrations w t g = 1 ∧ ∀ g', g' ≠ g → registrations w t g' = 0) ∧
    ((w.task t).state ≠ .pending → ∀ g, registrations w t g = 0) := by
  have hg := h.good
  have ho := hg.inv.ok t (by simp)
  constructor
  · intro hs
    obtain ⟨g, hh, hc, hm⟩ := ho.pend hs
    refine ⟨g, ?_, fun g' hne => ?_⟩
    · refine countP_one_of_nodup (hh, t) hm (by simp) ?_ (nodup_of_map (hg.inv.hnd g))
      rintro ⟨k, u⟩ hy hp
      simp only [beq_iff_eq] at hp; subst hp
      have := (ho.reg g k hy (by simp)).2
      rw [hc] at this
      simp only [Option.some.injEq, Prod.mk.injEq] at this
      rw [this.2]
    · unfold registrations
      rw [List.countP_eq_zero]
      rintro ⟨k, u⟩ hy hp
      simp only [beq_iff_eq] at hp; subst hp
      have := (ho.reg g' k hy (by simp)).2
      rw [hc] at this
      simp only [Option.some.injEq, Prod.mk.injEq] at this
      exact hne this.1.symm
  · intro hs g
    unfold registrations
    rw [List.countP_eq_zero]
    rintro ⟨k, u⟩ hy hp
    simp only [beq_iff_eq] at hp; subst hp
    exact hs (ho.reg g k hy (by simp)).1

/-- **C28.** No action ever fails with an internal error (`KeyError`, `AssertionError`): cancelling
or killing a waiting task always finds its registration. -/
theorem C28_no_internal_error {w w' : World} {a : Act} {r : Res} (h : Reach w)
    (he : exec w a = some (w', r)) : r ≠ .raisedInternal := by
  obtain ⟨D, hg⟩ := h.good
  have hd := fun t hs => deregister_ok (t := t) hg.inv hg.trg hs
  have hd2 := fun t => detach_ok (t := t) hg.inv hg.trg
  rintro rfl
  unfold exec at he
  split at he
  · cases he
  split at he
  · cases he
  · split at he <;> cases he
  · split at he
    · split at he <;> cases he
    · cases he
  · split at he <;> cases he
  · simp only [Option.some.injEq, startSoon] at he; split at he <;> cases he
  · simp only [Option.some.injEq, startNext] at he; split at he <;> cases he
  · rename_i t hi
    simp only [Option.some.injEq, cancel] at he
    split at he
    · cases he
    split at he
    · cases he
    split at he
    · rename_i hs
      obtain ⟨w1, h1⟩ := hd t hs
      rw [h1] at he; cases he
    split at he <;> cases he
  · rename_i t hi
    simp only [Option.some.injEq, kill] at he
    split at he
    · cases he
    split at he
    · cases he
    obtain ⟨w1, h1⟩ := hd2 t
    rw [h1] at he; cases he
  · rename_i t hi
    simp only [Option.some.injEq, cancelNow] at he
    split at he
    · cases he
    split at he
    · cases he
    split at he
    · rename_i hn
      split at hn
      · obtain ⟨w1, h1⟩ := hd2 t
        rename_i hs
        simp [detach, World.addLog, hs] at hn
      · obtain ⟨w1, h1⟩ := hd2 t
        rw [h1] at hn; cases hn
    · cases he
  · cases he
  · cases he
  · cases he
  · cases he
  · simp only [Option.some.injEq, release] at he
    split at he
    · cases he
    · split at he <;> cases he
  · split at he
    · unfold execCoro at he
      split at he
      · split at he <;> cases he
      all_goals cases he
    · split at he <;> cases he
    · cases he
  · cases he

/-- The cases of C28 occur: a run in which task 0 waits for a timer, is woken, waits for task 1,
and task 1 finishes. -/
example : let w := (run init [.enter, .startSoon 0, .startSoon 1, .pop, .await (.gpi 5) false, .pop,
      .await (.event 0) false, .exit, .fire 5, .pop, .setE 0, .await (.complete 1) false, .pop,
      .ret 7, .cbStep]).getD init
    (w.task 0).state = .scheduled ∧ queued w 0 = 1 ∧ (w.task 1).state = .finished ∧
      life 0 w.log = some .waiting ∧ life 1 w.log = some .over := by decide

example : let w := (run init [.enter, .startSoon 0, .pop, .await (.gpi 5) false]).getD init
    (w.task 0).state = .pending ∧ registrations w 0 (.gpi 5) = 1 := by decide

/-! ### C29 -/

theorem Sched.TStep.done_same {a t r r' obs} (h : TStep a t r r' obs) (hd : r.state.isDone = true) :
    r'.state = r.state ∧ r'.outcome = r.outcome := by
  cases h
  case finish s o how hs he => rw [hs] at hd; cases hd
  case kill ha hnd hnr => rw [hnd] at hd; cases hd
  case cancelNow ha hnd hnr => rw [hnd] at hd; cases hd
  all_goals first
    | exact ⟨rfl, rfl⟩
    | (rename_i hs; rw [hs] at hd; cases hd)
    | (rename_i hs _; rw [hs] at hd; cases hd)

theorem done_stays {w w' : World} {as : List Act} (h : Reach w) (hr : run w as = some w')
    {t : Nat} (hd : w.done t = true) :
    (w'.task t).state = (w.task t).state ∧ (w'.task t).outcome = (w.task t).outcome := by
  refine (run_induct (P := fun v => (v.task t).state = (w.task t).state ∧
    (v.task t).outcome = (w.task t).outcome) h.good ⟨rfl, rfl⟩ ?_ hr).1
  intro D v v' a r hg hp _ he
  obtain ⟨new, hlog, hT⟩ := hg.tstep he
  have := (hT t).done_same (by rw [hp.1]; exact hd)
  exact ⟨this.1.trans hp.1, this.2.trans hp.2⟩

/-- **C29.** Once a task is done, whatever happens afterwards, it stays done, and `result()`,
`exception()` and `cancelled()` keep reporting the same. -/
theorem C29_done_is_final {w w' : World} {as : List Act} (h : Reach w) (hr : run w as = some w')
    {t : Nat} (hd : w.done t = true) :
    w'.done t = true ∧ w'.result t = w.result t ∧ w'.exception t = w.exception t ∧
    w'.cancelled t = w.cancelled t := by
  obtain ⟨h1, h2⟩ := done_stays h hr hd
  refine ⟨?_, ?_, ?_, ?_⟩
  · unfold World.done at hd ⊢; rw [h1]; exact hd
  · simp only [World.result, h1, h2]
  · simp only [World.exception, h1, h2]
  · simp only [World.cancelled, h1]

/-- **C29.** `cancel()` and `kill()` of a done task do nothing; `cancel()` returns `False`. -/
theorem C29_cancel_and_kill_of_done (w : World) (t : Nat) (hh : w.halted = false)
    (hi : w.inside = true) (hd : w.done t = true) :
    exec w (.cancel t) = some (w, .bool false) ∧ exec w (.kill t) = some (w, .ok) := by
  unfold World.done at hd
  constructor
  · simp [exec, hh, hi, cancel, hd]
  · simp [exec, hh, hi, kill, hd]

/-- The outcome stored in a task fits its state. -/
def OutcomeOk (r : TaskRec) : Prop :=
  match r.state with
  | .finished => ∃ o, r.outcome = some o ∧ ∀ e, o ≠ .exc e
  | .errored => ∃ e, r.outcome = some (.exc e) ∧ e ≠ .cancelled
  | .cancelled => r.outcome = some (.exc .cancelled)
  | _ => r.outcome = none

theorem coroEnd_outcome {m a s o how} (h : coroEnd m a = some (s, o, how)) (r : TaskRec) :
    OutcomeOk { r with state := s, outcome := some o } := by
  unfold coroEnd at h
  repeat' split at h
  all_goals simp_all
  all_goals (obtain ⟨rfl, rfl, -⟩ := h; simp [OutcomeOk])
  all_goals (rename_i h1 _; exact h1)

theorem Sched.TStep.outcomeOk {a t r r' obs} (h : TStep a t r r' obs) (hr : OutcomeOk r) :
    OutcomeOk r' := by
  cases h
  case finish s o how hs he => exact coroEnd_outcome he r
  case kill => simp [OutcomeOk]
  case cancelNow ha hnd hnr =>
    cases hs : r.state <;> simp_all [OutcomeOk, TState.isDone]
  all_goals simp_all [OutcomeOk]

theorem outcomeOk {w : World} (h : Reach w) (t : Nat) : OutcomeOk (w.task t) := by
  refine h.induct (P := fun w => OutcomeOk (w.task t)) rfl ?_
  intro D w w' a r hg hp _ he
  obtain ⟨new, hlog, hT⟩ := hg.tstep he
  exact (hT t).outcomeOk hp

/-- **C29.** `done()`, `cancelled()`, `result()` and `exception()` agree: a task that is not done
raises `InvalidStateError` from both; a cancelled task raises `CancelledError` from both; a task
that ended normally returns its value and has no exception; a failed task raises/returns the same
exception, which is not `CancelledError`. -/
theorem C29_queries_agree {w : World} (h : Reach w) (t : Nat) :
    (w.done t = false ∧ w.cancelled t = false ∧ w.result t = .raisesInvalidState ∧
      w.exception t = .raisesInvalidState) ∨
    (w.done t = true ∧ w.cancelled t = true ∧ w.result t = .raises .cancelled ∧
      w.exception t = .raises .cancelled) ∨
    (w.done t = true ∧ w.cancelled t = false ∧
      ((∃ v, w.result t = .returns v) ∨ w.result t = .returnsNone) ∧
      w.exception t = .returnsNone) ∨
    (w.done t = true ∧ w.cancelled t = false ∧
      ∃ e, e ≠ .cancelled ∧ w.result t = .raises e ∧ w.exception t = .returnsExc e) := by
  have ho := outcomeOk h t
  unfold OutcomeOk at ho
  unfold World.done World.cancelled World.result World.exception
  cases hs : (w.task t).state <;> simp only [hs] at ho
  case finished =>
    obtain ⟨o, h1, h2⟩ := ho
    rw [h1]
    cases o <;> simp [TState.isDone]
    exact h2 _ rfl
  case errored =>
    obtain ⟨e, h1, h2⟩ := ho
    rw [h1]
    simp [TState.isDone, raiseOutcome, h2]
  case cancelled => simp [TState.isDone, raiseOutcome, ho]
  all_goals simp [TState.isDone]

/-- What a finished task reports is what its coroutine ended with: after `return v` without a
pending cancellation, `result()` is `v`. -/
theorem C29_result_is_returned_value {w w' : World} {r : Res} {t v : Nat} {rest : List Frame}
    (h : Reach w) (hst : w.stack = .running t :: rest) (hm : (w.task t).mustCancel = 0)
    (he : exec w (.ret v) = some (w', r)) :
    w'.result t = .returns v ∧ w'.exception t = .returnsNone := by
  obtain ⟨D, hg⟩ := h.good
  have hS := (exec_step he).2
  rcases hS with hS | hS
  · cases hS with
    | nop _ _ hi hr =>
      exfalso
      unfold exec at he
      split at he
      · cases he
      simp [hi, hst, execCoro, finishRet, hm, setOutcome] at he
      have := congrArg World.stack he.1
      simp only at this
      rw [hst] at this
      simp at this
    | finish _ u rest' s o how hi hst' hce =>
      rw [hst] at hst'
      simp only [List.cons.injEq, Frame.running.injEq] at hst'
      obtain ⟨rfl, rfl⟩ := hst'
      simp only [coroEnd, hm, gt_iff_lt, Nat.lt_irrefl, if_false, Option.some.injEq,
        Prod.mk.injEq] at hce
      obtain ⟨rfl, rfl, rfl⟩ := hce
      simp [World.result, World.exception, setOutcome, upd_self]
  · cases hS

example : let w := (run init [.enter, .startSoon 0, .pop, .ret 5, .cbStep]).getD init
    w.done 0 = true ∧ w.result 0 = .returns 5 ∧ w.inside = true ∧ w.halted = false := by decide

/-! ### C31 -/

/-- What was observed of the execution of task `t`: being continued, being suspended, finishing. -/
def execOf (t : Nat) (log : List Obs) : List Obs :=
  log.filter fun o => match o with
    | .resume u _ | .suspend u _ | .suspendBad u | .done u _ _ => u == t
    | _ => false

theorem execOf_about (t : Nat) (l : List Obs) : execOf t l = execOf t (l.filter (·.about t)) := by
  unfold execOf
  rw [List.filter_filter]
  congr 1
  funext o
  cases o <;> simp [Obs.about]

theorem execOf_append (t : Nat) (l l' : List Obs) :
    execOf t (l ++ l') = execOf t l ++ execOf t l' := by
  simp [execOf]

/-- The states of a cancelled task, with what has been observed since the cancellation. -/
inductive CancelState (t : Nat) (r : TaskRec) : List Obs → Prop
  | sched (hs : r.state = .scheduled) (he : r.exc = some .cancelled) (hm : r.mustCancel > 0) :
    CancelState t r []
  | run (hs : r.state = .running) (hm : r.mustCancel > 0) :
    CancelState t r [.resume t (some .cancelled)]
  | ended (s : TState) (o : Outcome) (hs : r.state = s) (ho : r.outcome = some o)
    (hok : (s = .cancelled ∧ o = .exc .cancelled) ∨ (s = .errored ∧ ∃ e, o = .exc e)) :
    CancelState t r [.resume t (some .cancelled), .done t s o]

theorem coroEnd_cancel {m a s o how} (hm : m > 0) (h : coroEnd m a = some (s, o, how)) :
    (s = .cancelled ∧ o = .exc .cancelled) ∨ (s = .errored ∧ ∃ e, o = .exc e) := by
  unfold coroEnd at h
  repeat' split at h
  all_goals simp_all
  all_goals (obtain ⟨rfl, rfl, -⟩ := h; simp)

theorem CancelState.step {a t r r' obs l} (h : CancelState t r l) (ht : TStep a t r r' obs)
    (h1 : a ≠ .uncancel t) (h2 : a ≠ .kill t) : CancelState t r' (l ++ execOf t obs) := by
  cases ht
  case same => simpa [execOf] using h
  case uncancel ha => exact absurd ha h1
  case kill ha _ _ => exact absurd ha h2
  case finish s o how hs he =>
    cases h with
    | run hs' hm =>
      have := CancelState.ended (t := t) (r := { r with state := s, outcome := some o }) s o rfl rfl
        (coroEnd_cancel hm he)
      simpa [execOf] using this
    | sched hs' => rw [hs] at hs'; cases hs'
    | ended s' o' hs' _ hok =>
      rw [hs] at hs'; rcases hok with ⟨rfl, -⟩ | ⟨rfl, -⟩ <;> cases hs'
  case cancelNow ha hnd hnr =>
    cases h with
    | run hs' hm => exact absurd hs' hnr
    | sched hs' he hm =>
      rw [if_neg (by rw [hs']; simp)]
      have : execOf t ([] ++ [Obs.resume t (some Exc.cancelled)]) =
        [Obs.resume t (some Exc.cancelled)] := by simp [execOf]
      rw [this]
      exact CancelState.run rfl (Nat.succ_pos _)
    | ended s' o' hs' _ hok =>
      rw [hs'] at hnd; rcases hok with ⟨rfl, -⟩ | ⟨rfl, -⟩ <;> cases hnd
  case run ha hs =>
    cases h with
    | run hs' hm => rw [hs] at hs'; cases hs'
    | sched hs' he hm =>
      have := CancelState.run (t := t) (r := { r with state := .running }) rfl hm
      simpa [execOf, he] using this
    | ended s' o' hs' _ hok =>
      rw [hs] at hs'; rcases hok with ⟨rfl, -⟩ | ⟨rfl, -⟩ <;> cases hs'
  case cancelS ha hs =>
    cases h with
    | run hs' hm => rw [hs] at hs'; cases hs'
    | sched hs' he hm =>
      exact CancelState.sched hs' rfl (Nat.succ_pos _)
    | ended s' o' hs' _ hok =>
      rw [hs] at hs'; rcases hok with ⟨rfl, -⟩ | ⟨rfl, -⟩ <;> cases hs'
  case addCb c ha hs =>
    have : execOf t [.regCb t c] = [] := by simp [execOf]
    rw [this, List.append_nil]
    cases h with
    | run hs' hm => exact .run hs' hm
    | sched hs' he hm => exact .sched hs' he hm
    | ended s' o' hs' ho hok => exact .ended s' o' hs' ho hok
  case addCbDone c ha hs =>
    have : execOf t [.regCb t c, .doneCb t c] = [] := by simp [execOf]
    rw [this, List.append_nil]
    cases h with
    | run hs' hm => exact .run hs' hm
    | sched hs' he hm => exact .sched hs' he hm
    | ended s' o' hs' ho hok => exact .ended s' o' hs' ho hok
  case cb c ha hs =>
    have : execOf t [.doneCb t c] = [] := by simp [execOf]
    rw [this, List.append_nil]
    exact h
  all_goals
    cases h with
    | run hs' hm => simp_all
    | sched hs' he hm => simp_all
    | ended s' o' hs' _ hok =>
      subst hs'; rcases hok with ⟨h4, -⟩ | ⟨h4, -⟩ <;> simp_all

/-- **C31.** After `cancel()` returned `True`, whatever else happens, the only things that can be
observed of the task's execution are, in this order: it is continued with `CancelledError`, and it
ends cancelled, or failed. In particular it never runs on normally, never waits for anything
again, and never ends with a normal result. (`kill()` ends the task without running it;
`_uncancel()` is how cocotb's own concurrency helpers take over the cancellation.) -/
theorem C31_cancellation_delivered {w w1 w2 : World} {t : Nat} {as : List Act} (h : Reach w)
    (hc : exec w (.cancel t) = some (w1, .bool true)) (hr : run w1 as = some w2)
    (hu : Act.uncancel t ∉ as) (hk : Act.kill t ∉ as) :
    ∃ suf, w2.log = w1.log ++ suf ∧
      (execOf t suf = [] ∨ execOf t suf = [.resume t (some .cancelled)] ∨
        ∃ s o, execOf t suf = [.resume t (some .cancelled), .done t s o] ∧
          (w2.task t).state = s ∧
          ((s = .cancelled ∧ o = .exc .cancelled) ∨ (s = .errored ∧ ∃ e, o = .exc e))) := by
  obtain ⟨D, hg⟩ := h.good
  have h0 : CancelState t (w1.task t) [] := by
    have hs := (exec_step hc).2
    rcases hs with hs | hs
    · cases hs with
      | nop _ _ _ hr => exact absurd rfl hr
      | cancelPending _ w0 hi hs hd =>
        exact .sched (by simp [bumpCancel, World.setTask, scheduleResume, upd_self])
          (by simp [bumpCancel, World.setTask, scheduleResume, upd_self])
          (by simp [bumpCancel, World.setTask, scheduleResume, upd_self])
      | cancelScheduled _ hi hs =>
        exact .sched (by simp [bumpCancel, World.setTask, upd_self, hs])
          (by simp [bumpCancel, World.setTask, upd_self])
          (by simp [bumpCancel, World.setTask, upd_self])
      | cancelUnstarted _ hi hs =>
        exact .sched (by simp [bumpCancel, World.setTask, scheduleResume, World.addLog, upd_self])
          (by simp [bumpCancel, World.setTask, scheduleResume, World.addLog, upd_self])
          (by simp [bumpCancel, World.setTask, scheduleResume, World.addLog, upd_self])
    · cases hs
  have key : ∀ (as : List Act) (v : World) (pre : List Obs), (∃ D, Good D v) →
      CancelState t (v.task t) (execOf t pre) → v.log = w1.log ++ pre → run v as = some w2 →
      Act.uncancel t ∉ as → Act.kill t ∉ as →
      ∃ suf, w2.log = w1.log ++ suf ∧ CancelState t (w2.task t) (execOf t suf) := by
    intro as
    induction as with
    | nil => intro v pre _ h1 h2 h3 _ _; cases h3; exact ⟨pre, h2, h1⟩
    | cons a as ih =>
      intro v pre hgv h1 h2 h3 hu hk
      simp only [run] at h3
      split at h3
      · rename_i v1 r he
        obtain ⟨D, hgv⟩ := hgv
        obtain ⟨new, hlog, hT⟩ := hgv.tstep (exec_step he).2
        obtain ⟨D', hg', -⟩ := hgv.exec he
        refine ih v1 (pre ++ new) ⟨D', hg'⟩ ?_ (by rw [hlog, h2, List.append_assoc]) h3
          (fun h => hu (by simp [h])) (fun h => hk (by simp [h]))
        rw [execOf_append, execOf_about t new]
        exact h1.step (hT t) (fun h => hu (by simp [h])) (fun h => hk (by simp [h]))
      · cases h3
  obtain ⟨suf, h1, h2⟩ := key as w1 [] (by obtain ⟨D', hg', -⟩ := hg.exec hc; exact ⟨D', hg'⟩)
    h0 (by simp) hr hu hk
  refine ⟨suf, h1, ?_⟩
  generalize hl : execOf t suf = l at h2
  cases h2 with
  | sched => exact Or.inl rfl
  | run => exact Or.inr (Or.inl rfl)
  | ended s o hs ho hok => exact Or.inr (Or.inr ⟨s, o, rfl, hs, hok⟩)

/-- **C31.** A task that was cancelled is queued, and its former registration is gone. -/
theorem C31_no_longer_waiting {w w1 : World} {t : Nat} (h : Reach w)
    (hc : exec w (.cancel t) = some (w1, .bool true)) :
    queued w1 t = 1 ∧
    ∀ g k, (w.task t).state = .pending → (w.task t).tcb = some (g, k) → (k, t) ∉ w1.cbs g := by
  have hs1 : (w1.task t).state = .scheduled ∧
      ∀ g k, (w.task t).state = .pending → (w.task t).tcb = some (g, k) → (k, t) ∉ w1.cbs g := by
    rcases (exec_step hc).2 with hs | hs
    · cases hs with
      | nop _ _ _ hr => exact absurd rfl hr
      | cancelPending _ w0 hi hs hd =>
        refine ⟨by simp [bumpCancel, World.setTask, scheduleResume, upd_self], ?_⟩
        intro g k _ htcb
        rw [htcb] at hd
        have := (deregister_cases hd).2.1
        simp only [bumpCancel, World.setTask, scheduleResume, this, upd_self, List.mem_filter]
        simp
      | cancelScheduled _ hi hs =>
        exact ⟨by simp [bumpCancel, World.setTask, upd_self, hs], by simp [hs]⟩
      | cancelUnstarted _ hi hs =>
        exact ⟨by simp [bumpCancel, World.setTask, scheduleResume, World.addLog, upd_self],
          by simp [hs]⟩
    · cases hs
  refine ⟨?_, hs1.2⟩
  rw [C28_queued_once (h.exec hc) t, if_pos hs1.1]

/-- **C31.** `cancel()` returns `True` exactly for tasks that are neither done nor the running
task: waiting, queued and not yet started ones. -/
theorem C31_cancel_returns_true_iff {w : World} (h : Reach w) (hh : w.halted = false)
    (hi : w.inside = true) (t : Nat) :
    (∃ w1, exec w (.cancel t) = some (w1, .bool true)) ↔
      (w.done t = false ∧ (w.task t).state ≠ .running) := by
  obtain ⟨D, hg⟩ := h.good
  have hd := fun hs => deregister_ok (t := t) hg.inv hg.trg hs
  unfold World.done
  simp only [exec, hh, hi, Bool.false_eq_true, if_false, cancel]
  cases hs : (w.task t).state <;> simp [TState.isDone]
  obtain ⟨w1, h1⟩ := hd hs
  rw [h1]
  simp

example : let w := (run init [.enter, .startSoon 0, .pop, .await (.gpi 5) false, .startSoon 1,
      .pop]).getD init
    ((exec w (.cancel 0)).map Prod.snd = some (.bool true)) ∧
    (let w2 := (run w [.cancel 0, .ret 0, .cbStep, .pop, .ret 3, .cbStep]).getD init
     w2.result 0 = .raises .runtimeError) ∧
    (let w2 := (run w [.cancel 0, .ret 0, .cbStep, .pop, .raise .cancelled, .cbStep]).getD init
     w2.result 0 = .raises .cancelled) := by decide

end Verif
