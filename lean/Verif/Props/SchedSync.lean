import Verif.Props.SchedDone
import Verif.Lemmas.SchedWake
import Verif.Lemmas.SchedLock

/-! Triggers, events and locks: C32-C36, and the part of C30 about waiting for a task. -/

namespace Verif

open Sched SchedSpec

/-! ### C32 -/

/-- C32, arming, in full: the simulator callback of a trigger is armed exactly while somebody waits
for it. -/
def C32_armed_iff_waiters_full : Prop :=
  ∀ w, Reach w → ∀ n, w.primed n = true ↔ waiters w (.gpi n) ≠ []

/-- If arming fails once, the failed waiter stays registered, so nobody arms the trigger again: the
second task waits for a trigger that is not armed. -/
theorem C32_armed_iff_waiters_counterexample : ¬ C32_armed_iff_waiters_full := by
  intro h
  have hr : Reach ((run init [.enter, .startSoon 0, .startSoon 1, .pop, .await (.gpi 0) true, .pop,
      .await (.gpi 0) false]).getD init) :=
    ⟨[.enter, .startSoon 0, .startSoon 1, .pop, .await (.gpi 0) true, .pop,
      .await (.gpi 0) false], rfl⟩
  have := h _ hr 0
  revert this
  decide

/-- **C32, partial**: proved for all histories in which the simulator never refuses to arm a
callback; in the others it is false (see the counterexample). -/
theorem C32_armed_iff_waiters_partial {w : World} (h : ReachOk w) (n : Nat) :
    w.primed n = true ↔ waiters w (.gpi n) ≠ [] := by
  have := h.good.trg.trig (.gpi n)
  simp only [TrigOk, not_false_eq_true, and_true] at this
  simp [waiters, this]

/-- **C32.** A trigger is never armed without a waiter, whatever the simulator does. -/
theorem C32_armed_only_with_waiters {w : World} (h : Reach w) (n : Nat) (hp : w.primed n = true) :
    waiters w (.gpi n) ≠ [] := by
  obtain ⟨D, hg⟩ := h.good
  have := ((hg.trg.trig (.gpi n)).1 hp).1
  simpa [waiters] using this

/-- What the event loop will run: the tasks in its queue, in order. -/
def loopQueue (w : World) : List Nat := (w.queue.filter (!·.cancelled)).map (·.task)

theorem react_loopQueue (w : World) (g : Trig) :
    loopQueue (react w g) = loopQueue w ++ waiters w g := by
  have h := react_queue w g
  have key : ∀ (l : List Entry), ((l.filter (!·.cancelled)).map (·.task)) =
      ((l.map (fun e => (e.task, e.cancelled))).filter (!·.2)).map Prod.fst := by
    intro l
    induction l with
    | nil => rfl
    | cons e l ih =>
      simp only [List.map_cons, List.filter_cons]
      split <;> simp [ih]
  unfold loopQueue waiters
  rw [key, key, h, List.filter_append, List.map_append]
  congr 1
  generalize w.cbs g = l
  induction l with
  | nil => rfl
  | cons p l ih => simp [ih]

theorem exec_fire {w w' : World} {n : Nat} {r : Res} (he : exec w (.fire n) = some (w', r)) :
    w.primed n = true ∧
    w' = react ({ w with primed := upd w.primed n false, inside := true }.addLog (.fire n)) (.gpi n) := by
  unfold exec at he
  split at he
  · cases he
  cases hi : w.inside
  · simp only [hi] at he
    split at he
    · rename_i hp
      cases he
      exact ⟨hp, rfl⟩
    · cases he
  · simp only [hi] at he
    split at he
    · simp [execCoro] at he
    · simp at he
    · cases he

/-- **C32.** When the simulator fires an armed trigger, exactly the tasks waiting at that moment are
queued to run, once each, in the order in which they started to wait; afterwards nobody waits for
it and it is no longer armed. -/
theorem C32_fire_wakes_all_in_order {w w' : World} {n : Nat} {r : Res}
    (he : exec w (.fire n) = some (w', r)) :
    loopQueue w' = loopQueue w ++ waiters w (.gpi n) ∧ waiters w' (.gpi n) = [] ∧
    w'.primed n = false ∧ ∀ g, g ≠ .gpi n → waiters w' g = waiters w g := by
  obtain ⟨hp, rfl⟩ := exec_fire he
  obtain ⟨hx, hc, -⟩ := react_aux ({ w with primed := upd w.primed n false, inside := true }.addLog (.fire n))
    (.gpi n)
  refine ⟨?_, ?_, ?_, ?_⟩
  · rw [react_loopQueue]; rfl
  · simp [waiters, hc, upd_self]
  · rw [hx.primed]; simp [World.addLog, upd_self]
  · intro g hg; unfold waiters; rw [hc, upd_ne _ _ hg]; rfl

/-- **C32.** A fired waiter is continued normally (with no exception). -/
theorem C32_fire_resumes_normally {w w' : World} {n : Nat} {r : Res} {t : Nat}
    (he : exec w (.fire n) = some (w', r)) (ht : t ∈ waiters w (.gpi n)) :
    (w'.task t).state = .scheduled ∧ (w'.task t).exc = none := by
  obtain ⟨hp, rfl⟩ := exec_fire he
  obtain ⟨k, hk⟩ := react_task_on ({ w with primed := upd w.primed n false, inside := true }.addLog (.fire n))
    (.gpi n) t
    (by simpa [waiters, On, World.addLog] using ht)
  rw [hk]; exact ⟨rfl, rfl⟩

/-- **C32.** No spurious wake-ups: a waiting task goes on waiting for the same trigger unless it is
cancelled or killed, or the trigger it is registered with fires. `firesOn` lists what fires: a GPI
trigger when the simulator fires it, an event's when it is set, a lock's when the lock is released
and it is the oldest request, a task's completion when the last done callback has been called. -/
theorem C32_woken_only_by_its_trigger {w w' : World} {a : Act} {r : Res} (h : Reach w)
    (he : exec w a = some (w', r)) {t : Nat} (hs : (w.task t).state = .pending) :
    ((w'.task t).state = .pending ∧ (w'.task t).tcb = (w.task t).tcb) ∨
    (a = .cancel t ∨ a = .kill t ∨ a = .cancelNow t) ∨
    ∃ g ∈ firesOn w a, t ∈ waiters w g := by
  obtain ⟨D, hg⟩ := h.good
  exact hg.woken (exec_step he).2 hs

/-- **C32.** A waiting task is registered with the trigger its coroutine yielded last. -/
theorem C32_waits_for_what_it_yielded {w : World} (h : Reach w) {t : Nat}
    (hs : (w.task t).state = .pending) :
    ∃ g, t ∈ waiters w g ∧ (execOf t w.log).getLast? = some (.suspend t g) := by
  have key : (w.task t).state = .pending → ∃ g k, (w.task t).tcb = some (g, k) ∧
      (execOf t w.log).getLast? = some (.suspend t g) := by
    refine h.induct (P := fun w => (w.task t).state = .pending → ∃ g k,
      (w.task t).tcb = some (g, k) ∧ (execOf t w.log).getLast? = some (.suspend t g)) ?_ ?_
    · intro h; simp [init] at h
    · intro D w w' a r hg hp _ he
      obtain ⟨new, hlog, hT⟩ := hg.tstep he
      rw [hlog, execOf_append, execOf_about t new]
      have hT := hT t
      generalize new.filter (·.about t) = obs at hT
      generalize w'.task t = r' at hT
      intro hs
      cases hT
      case same => simpa [execOf] using hp hs
      case suspend g k ha hs' hm => exact ⟨g, k, rfl, by simp [execOf]⟩
      case uncancel => simpa [execOf] using hp hs
      case addCb c ha hs' => simpa [execOf] using hp hs
      case addCbDone c ha hs' => simpa [execOf] using hp hs
      case cb c ha hs' => rw [hs] at hs'; cases hs'
      case cancelS ha hs' => rw [hs'] at hs; cases hs
      case finish s o how hs' hce =>
        have := coroEnd_done hce
        simp only at hs
        rw [hs] at this; cases this
      all_goals simp at hs
  obtain ⟨g, k, h1, h2⟩ := key hs
  obtain ⟨D, hg⟩ := h.good
  obtain ⟨g', k', h3, h4⟩ := (hg.inv.ok t (by simp)).pend hs
  rw [h1] at h3
  simp only [Option.some.injEq, Prod.mk.injEq] at h3
  obtain ⟨rfl, rfl⟩ := h3
  exact ⟨g, List.mem_map.2 ⟨_, h4, rfl⟩, h2⟩

/-- **C32.** When the last waiter is removed by cancellation, the trigger is disarmed. -/
theorem C32_cancel_disarms {w w' : World} {r : Res} {t n : Nat} (h : ReachOk w)
    (he : exec w (.cancel t) = some (w', r)) (hw : waiters w (.gpi n) = [t]) :
    w'.primed n = false := by
  have hok : ReachOk w' := by
    obtain ⟨as, h1, h2⟩ := h
    refine ⟨as ++ [.cancel t], ?_, ?_⟩
    · intro a ha
      simp only [List.mem_append, List.mem_singleton] at ha
      rcases ha with ha | rfl
      · exact h1 a ha
      · rfl
    · rw [run_append, h2]; simp [run, he]
  have hg := h.good
  have hcb : ∃ k, w.cbs (.gpi n) = [(k, t)] := by
    unfold waiters at hw
    cases hc : w.cbs (.gpi n) with
    | nil => simp [hc] at hw
    | cons p l =>
      obtain ⟨k, u⟩ := p
      rw [hc] at hw
      simp only [List.map_cons, List.cons.injEq, List.map_eq_nil_iff] at hw
      exact ⟨k, by rw [hw.1, hw.2]⟩
  obtain ⟨k, hk⟩ := hcb
  have hr := (hg.inv.ok t (by simp)).reg (.gpi n) k (by simp [hk]) (by simp)
  have hp : ¬ w'.primed n = true := by
    rw [C32_armed_iff_waiters_partial hok n]
    rcases (exec_step he).2 with hs | hs
    · cases hs with
      | nop _ _ hi hrr =>
        exfalso
        obtain ⟨w1, h1⟩ := (C31_cancel_returns_true_iff h.reach (exec_step he).1 hi t).2
          ⟨by simp [World.done, hr.1, TState.isDone], by simp [hr.1]⟩
        rw [he] at h1
        simp only [Option.some.injEq, Prod.mk.injEq] at h1
        exact hrr h1.2
      | cancelPending _ w1 hi hs hd =>
        rw [hr.2] at hd
        have hd := (deregister_cases hd).2.1
        simp [waiters, bumpCancel, World.setTask, scheduleResume, hd, upd_self, hk]
      | cancelScheduled _ hi hs => rw [hr.1] at hs; cases hs
      | cancelUnstarted _ hi hs => rw [hr.1] at hs; cases hs
      | finish _ _ _ _ _ _ _ _ hce => simp [coroEnd] at hce
    · cases hs
  simpa using hp

example : let w := (run init [.enter, .startSoon 0, .startSoon 1, .pop, .await (.gpi 3) false, .pop,
      .await (.gpi 3) false, .exit]).getD init
    waiters w (.gpi 3) = [0, 1] ∧ w.primed 3 = true ∧
    (exec w (.fire 3)).map (fun p => loopQueue p.1) = some [0, 1] ∧
    ((exec { w with inside := true } (.cancel 0)).map fun p => (p.1.primed 3, waiters p.1 (.gpi 3)))
      = some (true, [1]) := by decide

/-! ### C30, waiting for a task -/

/-- **C30.** A task that waits for the end of `t` is woken (other than by being cancelled or killed)
only when `t` is done. -/
theorem C30_woken_only_when_done {w w' : World} {a : Act} {r : Res} (h : Reach w)
    (he : exec w a = some (w', r)) {t u : Nat} (hs : (w.task u).state = .pending)
    (hw : u ∈ waiters w (.complete t) ∨ u ∈ waiters w (.join t))
    (hn : a ≠ .cancel u ∧ a ≠ .kill u ∧ a ≠ .cancelNow u)
    (hs' : (w'.task u).state ≠ .pending) : w.done t = true ∧ w'.done t = true := by
  obtain ⟨D, hg⟩ := h.good
  have hreg := (hg.inv.ok u (by simp)).reg
  rcases hg.woken (exec_step he).2 hs with h1 | h1 | ⟨g, h1, h2⟩
  · exact absurd h1.1 hs'
  · rcases h1 with h1 | h1 | h1
    · exact absurd h1 hn.1
    · exact absurd h1 hn.2.1
    · exact absurd h1 hn.2.2
  · have huniq : ∀ g' g'', ¬ D g' → ¬ D g'' → u ∈ (w.cbs g').map Prod.snd →
        u ∈ (w.cbs g'').map Prod.snd → g' = g'' := by
      intro g' g'' d1 d2 m1 m2
      obtain ⟨⟨k1, u1⟩, n1, e1⟩ := List.mem_map.1 m1
      obtain ⟨⟨k2, u2⟩, n2, e2⟩ := List.mem_map.1 m2
      simp only at e1 e2; subst e1; subst e2
      have e1 := (hreg g' k1 n1 d1).2
      have e2 := (hreg g'' k2 n2 d2).2
      rw [e1] at e2
      simp only [Option.some.injEq, Prod.mk.injEq] at e2
      exact e2.1
    have hdead : ∀ g', (∀ n, g' ≠ .gpi n) → ¬ D g' := fun g' h => hg.inv.gpiDead h
    have hgD : ¬ D g := by
      cases a <;> simp only [firesOn, List.mem_singleton, List.not_mem_nil] at h1
      case fire n =>
        subst h1
        exact hg.primed n (exec_fire he).1
      case setE e => subst h1; exact hdead _ (by simp)
      case release l =>
        split at h1
        · simp only [List.mem_singleton] at h1; subst h1; exact hdead _ (by simp)
        · cases h1
      case cbStep =>
        split at h1
        · split at h1
          · simp only [List.mem_cons, List.not_mem_nil, or_false] at h1
            rcases h1 with rfl | rfl <;> exact hdead _ (by simp)
          · cases h1
        · cases h1
    have hgeq : g = .complete t ∨ g = .join t := by
      rcases hw with hw | hw
      · exact Or.inl (huniq _ _ hgD (hdead _ (by simp)) h2 hw)
      · exact Or.inr (huniq _ _ hgD (hdead _ (by simp)) h2 hw)
    have hd : w.done t = true := by
      cases a <;> simp only [firesOn, List.mem_singleton, List.not_mem_nil] at h1
      case fire n => subst h1; rcases hgeq with h | h <;> cases h
      case setE e => subst h1; rcases hgeq with h | h <;> cases h
      case release l =>
        split at h1
        · simp only [List.mem_singleton] at h1; subst h1; rcases hgeq with h | h <;> cases h
        · cases h1
      case cbStep =>
        split at h1
        · rename_i t' i how rest hst
          split at h1
          · simp only [List.mem_cons, List.not_mem_nil, or_false] at h1
            have hd := hg.stk.fin t' i how (by simp [hst])
            rcases h1 with rfl | rfl <;> rcases hgeq with h | h <;> cases h <;> exact hd
          · cases h1
        · cases h1
    exact ⟨hd, (C29_done_is_final h (as := [a]) (by simp [run, he]) hd).1⟩

/-- What `await` of trigger `g` by the running task gives if the trigger is already satisfied:
the task is queued again at once. -/
theorem await_ready {w w' : World} {r : Res} {t : Nat} {rest : List Frame} {g : Trig} {f : Bool}
    (hst : w.stack = .running t :: rest) (hm : (w.task t).mustCancel = 0) (hc : w.cbs g = [])
    (hready : (∃ e, g = .event e ∧ w.fired e = true) ∨ (∃ n, g = .null n) ∨
      (∃ u, g = .complete u ∧ (w.task u).state.isDone = true ∧ u ≠ t) ∨
      (∃ u, g = .join u ∧ (w.task u).state.isDone = true ∧ u ≠ t) ∨
      (∃ l n, g = .lock l n ∧ (w.lock l).current = none))
    (he : exec w (.await g f) = some (w', r)) (hr : r = .ok) :
    (w'.task t).state = .scheduled ∧ (w'.task t).exc = none := by
  subst hr
  unfold exec at he
  split at he
  · cases he
  cases hi : w.inside
  · simp [hi] at he
  simp only [hi, hst, execCoro] at he
  split at he
  · simp at he
  simp only [Option.some.injEq, Prod.mk.injEq, and_true] at he
  subst he
  simp only [suspendOn, hm, gt_iff_lt, Nat.lt_irrefl, if_false]
  unfold register
  have hce : (w.cbs g).isEmpty = true := by simp [hc]
  simp only [World.addLog, World.setTask, hce, if_true]
  rcases hready with ⟨e, rfl, h⟩ | ⟨n, rfl⟩ | ⟨u, rfl, h, hu⟩ | ⟨u, rfl, h, hu⟩ | ⟨l, n, rfl, h⟩
  · simp only [prime, h, if_true]
    rw [react_one _ _ w.nHandle t (by simp [upd_self, hc])]
    simp [scheduleResume, upd_self]
  · simp only [prime]
    rw [react_one _ _ w.nHandle t (by simp [upd_self, hc])]
    simp [scheduleResume, upd_self]
  · simp only [prime, upd_ne _ _ hu, h, if_true]
    rw [react_one _ _ w.nHandle t (by simp [upd_self, hc])]
    simp [scheduleResume, upd_self]
  · simp only [prime, upd_ne _ _ hu, h, if_true]
    rw [react_one _ _ w.nHandle t (by simp [upd_self, hc])]
    simp [scheduleResume, upd_self]
  · simp only [prime, primeLock, World.addLog, h, if_true, acquireAndFire]
    rw [react_one _ _ w.nHandle t (by simp [World.setLock, upd_self, hc])]
    simp [scheduleResume, upd_self]

theorem run_one {w w' : World} {a : Act} {r : Res} (he : exec w a = some (w', r)) :
    run w [a] = some w' := by
  simp [run, he]

/-- **C30.** Awaiting a task that is done (and whose end has been announced) does not block: the
awaiting task is queued at once, to be continued normally. -/
theorem C30_await_done_does_not_block {w w' : World} {r : Res} {t u : Nat} {rest : List Frame}
    {f : Bool} (h : Reach w) (hst : w.stack = .running t :: rest) (hm : (w.task t).mustCancel = 0)
    (hd : w.done u = true) (ha : ¬ announcing w u)
    (he : exec w (.await (.complete u) f) = some (w', r) ∨
      exec w (.await (.join u) f) = some (w', r)) :
    (w'.task t).state = .scheduled ∧ (w'.task t).exc = none ∧ w'.result u = w.result u := by
  obtain ⟨D, hg⟩ := h.good
  obtain ⟨h1, h2⟩ := C30_nobody_left_waiting h hd ha
  have hne : u ≠ t := by
    rintro rfl
    have := (hg.stk.run u).1 (by simp [hst])
    rw [World.done, this] at hd; cases hd
  have hok : ∀ {g : Trig}, (∃ v, g = .complete v ∨ g = .join v) →
      exec w (.await g f) = some (w', r) → r = .ok := by
    rintro g ⟨v, hv⟩ he
    unfold exec at he
    split at he
    · cases he
    cases hi : w.inside
    · simp [hi] at he
    simp only [hi, hst, execCoro] at he
    rcases hv with rfl | rfl <;> simp [awaitRefused] at he <;> exact he.2.symm
  simp only [waiters, List.map_eq_nil_iff] at h1 h2
  rcases he with he | he
  · have := await_ready hst hm h1 (Or.inr (Or.inr (Or.inl ⟨u, rfl, hd, hne⟩))) he
      (hok ⟨u, Or.inl rfl⟩ he)
    exact ⟨this.1, this.2, (C29_done_is_final h (as := [_]) (run_one he) hd).2.1⟩
  · have := await_ready hst hm h2 (Or.inr (Or.inr (Or.inr (Or.inl ⟨u, rfl, hd, hne⟩)))) he
      (hok ⟨u, Or.inr rfl⟩ he)
    exact ⟨this.1, this.2, (C29_done_is_final h (as := [_]) (run_one he) hd).2.1⟩

/-- **C30.** When the last done callback of `t` has been called, every task waiting for the end of
`t` is queued, once each and in the order in which they started waiting, to be continued normally,
and nobody waits for it any more. -/
theorem C30_end_wakes_all_waiters {w w' : World} {r : Res} {t i : Nat} {how : How}
    {rest : List Frame} (hst : w.stack = .finishing t i how :: rest)
    (hl : (w.task t).doneCbs.length ≤ i) (he : exec w .cbStep = some (w', r)) :
    loopQueue w' = loopQueue w ++ waiters w (.complete t) ++ waiters w (.join t) ∧
    waiters w' (.complete t) = [] ∧ waiters w' (.join t) = [] ∧
    ∀ u, u ∈ waiters w (.complete t) ∨ u ∈ waiters w (.join t) →
      (w'.task u).state = .scheduled ∧ (w'.task u).exc = none := by
  have hc : (w.task t).doneCbs[i]? = none := List.getElem?_eq_none_iff.2 hl
  have hw' : w' = finishEnd { w with stack := rest } t how := by
    unfold exec at he
    split at he
    · cases he
    cases hi : w.inside
    · simp [hi] at he
    simp only [hi, hst, if_true, cbStep, hc, Option.some.injEq, Prod.mk.injEq] at he
    exact he.1.symm
  have e : loopQueue w' = loopQueue (react (react { w with stack := rest } (.complete t)) (.join t)) ∧
      w'.cbs = (react (react { w with stack := rest } (.complete t)) (.join t)).cbs ∧
      w'.task = (react (react { w with stack := rest } (.complete t)) (.join t)).task := by
    subst hw'; unfold finishEnd; cases how <;> exact ⟨rfl, rfl, rfl⟩
  obtain ⟨e1, e2, e3⟩ := e
  have hx1 := (react_aux { w with stack := rest } (.complete t)).2.1
  have hx2 := (react_aux (react { w with stack := rest } (.complete t)) (.join t)).2.1
  have hjoin : waiters (react { w with stack := rest } (.complete t)) (.join t) =
      waiters w (.join t) := by
    simp [waiters, hx1, upd_ne _ _ (show Trig.join t ≠ .complete t by simp)]
  refine ⟨?_, ?_, ?_, ?_⟩
  · rw [e1, react_loopQueue, react_loopQueue, hjoin]; rfl
  · simp [waiters, e2, hx2, hx1, upd_self, upd_ne _ _ (show Trig.complete t ≠ .join t by simp)]
  · simp [waiters, e2, hx2, upd_self]
  · intro u hu
    rw [e3]
    by_cases hj : On (react { w with stack := rest } (.complete t)) (.join t) u
    · obtain ⟨k, hk⟩ := react_task_on _ _ _ hj
      rw [hk]; exact ⟨rfl, rfl⟩
    · rw [react_task_off _ _ _ hj]
      have hcm : On { w with stack := rest } (.complete t) u := by
        rcases hu with hu | hu
        · exact hu
        · exact absurd (by unfold On; unfold waiters at hjoin; rw [hjoin]; exact hu) hj
      obtain ⟨k, hk⟩ := react_task_on _ _ _ hcm
      rw [hk]; exact ⟨rfl, rfl⟩

example : let w := (run init [.enter, .startSoon 0, .startSoon 1, .startSoon 2, .pop,
      .await (.complete 2) false, .pop, .await (.join 2) false, .pop, .ret 4]).getD init
    waiters w (.complete 2) = [0] ∧ waiters w (.join 2) = [1] ∧
    w.stack = [.finishing 2 0 .resume] ∧
    (exec w .cbStep).map (fun p => loopQueue p.1) = some [0, 1] := by decide

/-! ### C33 -/

/-- **C33.** `is_set()` reports the last of `set()` and `clear()`. -/
theorem C33_is_set_reports_last {w : World} (h : Reach w) (e : Nat) :
    w.fired e = lastSet e w.log := by
  have happ : ∀ l l' : List Obs, (∀ o ∈ l', ∀ e, o ≠ .setE e ∧ o ≠ .clearE e) →
      lastSet e (l ++ l') = lastSet e l := by
    intro l l' hl
    unfold lastSet
    rw [List.foldl_append]
    generalize (List.foldl _ false l) = b
    induction l' generalizing b with
    | nil => rfl
    | cons o l' ih =>
      rw [List.foldl_cons, ih (fun o ho => hl o (by simp [ho]))]
      have ho := hl o (by simp)
      cases o with
      | setE e' => exact absurd rfl (ho e').1
      | clearE e' => exact absurd rfl (ho e').2
      | _ => rfl
  have hlk : ∀ (l : List Obs), (∀ o ∈ l, o.lockish = true) →
      ∀ o ∈ l, ∀ e, o ≠ .setE e ∧ o ≠ .clearE e := by
    intro l hl o ho e
    have := hl o ho
    constructor <;> rintro rfl <;> cases this
  refine h.induct (P := fun w => w.fired e = lastSet e w.log) rfl ?_
  intro D w w' a r hg hp _ he
  have hgen : ∀ {v : World} {new : List Obs}, v.log = w.log ++ new → v.fired = w.fired →
      (∀ o ∈ new, ∀ e, o ≠ .setE e ∧ o ≠ .clearE e) → v.fired e = lastSet e v.log := by
    intro v new h1 h2 h3
    rw [h1, happ _ _ h3, h2, hp]
  rcases he with he | he
  · cases he with
    | enter => exact hp
    | fire n hi hpr =>
      have hx := (react_aux ({ w with primed := upd w.primed n false, inside := true }.addLog (.fire n)) (.gpi n)).1
      exact hgen (new := [.fire n]) (by rw [hx.log]; simp [World.addLog]) hx.fired (by simp)
    | popCancelled => exact hp
    | popRun e' rest hi hst hq hc => exact hgen (new := [_]) rfl rfl (by simp)
    | exit => exact hp
    | nop => exact hp
    | startSoon u hi hu => exact hgen (new := [_]) rfl rfl (by simp)
    | startNext u hi hu => exact hgen (new := [_]) rfl rfl (by simp)
    | cancelPending u w1 hi hu hd =>
      obtain ⟨-, -, -, -, -, -, d7, -, new, d9, d10⟩ := deregister_task hd
      exact hgen (new := new) d9 d7 (hlk _ d10)
    | cancelScheduled u hi hu => exact hp
    | cancelUnstarted u hi hu => exact hgen (new := [_]) rfl rfl (by simp)
    | kill u w1 hi hnd hnr hd =>
      obtain ⟨-, -, -, -, -, d7, -, new, d9, d10⟩ := detach_task hd
      refine hgen (new := new ++ [.done u .finished .noneKilled]) (by simp [setOutcome, d9])
        (by simp [setOutcome, d7]) ?_
      intro o ho
      rcases List.mem_append.1 ho with ho | ho
      · exact hlk _ d10 o ho
      · simp at ho; subst ho; simp
    | cancelNow u w1 hi hnd hnr hd =>
      obtain ⟨-, -, -, -, -, d7, -, new, d9, d10⟩ := detach_task hd
      refine hgen (new := (if (w.task u).state = .unstarted then [.start u] else []) ++ new ++
        [.resume u (some .cancelled)]) ?_ ?_ ?_
      · simp only [resume, bumpCancel, World.setTask, d9, upd_self]
        split <;> simp [World.addLog]
      · have : w1.fired = w.fired := by rw [d7]; split <;> rfl
        simp [resume, bumpCancel, World.setTask, this]
      · intro o ho
        simp only [List.mem_append, List.mem_singleton] at ho
        rcases ho with (ho | ho) | ho
        · split at ho <;> simp at ho
          subst ho; simp
        · exact hlk _ d10 o ho
        · subst ho; simp
    | uncancel u => exact hp
    | addCbDone u => exact hgen (new := [_, _]) rfl rfl (by simp)
    | addCb u => exact hgen (new := [_]) rfl rfl (by simp)
    | setE e' hi =>
      have hx := (react_aux (World.addLog { w with fired := upd w.fired e' true } (.setE e'))
        (.event e')).1
      unfold setEvent
      rw [hx.log, hx.fired]
      simp only [World.addLog, lastSet, List.foldl_append, List.foldl_cons, List.foldl_nil]
      by_cases hee : e' = e
      · subst hee; simp [upd_self]
      · rw [upd_ne _ _ (Ne.symm hee), if_neg hee, hp]; rfl
    | clearE e' hi =>
      simp only [clearEvent, World.addLog, lastSet, List.foldl_append, List.foldl_cons,
        List.foldl_nil]
      by_cases hee : e' = e
      · subst hee; simp [upd_self]
      · rw [upd_ne _ _ (Ne.symm hee), if_neg hee, hp]; rfl
    | release l m hi hc hpd => exact hgen (new := [_]) rfl rfl (by simp)
    | releaseGrant l m n ns hi hc hpd =>
      refine hgen (new := [.rel l, .grant l n]) ?_ ?_ (by simp)
      · simp [acquireAndFire, (react_aux _ _).1.log, World.addLog, World.setLock]
      · simp [acquireAndFire, (react_aux _ _).1.fired, World.addLog, World.setLock]
    | await u rest g fails hi hst hr hm =>
      have hs := (hg.stk.run u).1 (by simp [hst])
      have hX : Inv D { w with stack := rest } [u] :=
        (hg.inv.addX (t := u) (by rw [hs]; exact not_waiting_running)).congr rfl rfl rfl rfl rfl
      obtain ⟨⟨new', e1, e2⟩, -, -, -, -, e5, -⟩ := register_task (t := u) (g := g)
        (w := (World.setTask { w with stack := rest } u
            { w.task u with state := .pending }).addLog (.suspend u g))
        (Inv.log (hX.setTaskX (by simp)) _)
        (by simp [World.addLog, World.setTask, upd_self])
      refine hgen (new := [.suspend u g] ++ new') ?_ ?_ ?_
      · dsimp only; rw [e1]; simp [World.addLog, World.setTask]
      · dsimp only; rw [e5]; rfl
      · intro o ho
        rcases List.mem_append.1 ho with ho | ho
        · simp at ho; subst ho; simp
        · exact hlk _ e2 o ho
    | yieldBad u rest hi hst hm => exact hgen (new := [_]) rfl rfl (by simp)
    | finish _ u rest s o how hi hst hce => exact hgen (new := [_]) rfl rfl (by simp)
    | cbNext u i how rest c hi hst hc => exact hgen (new := [_]) rfl rfl (by simp)
    | cbEnd u i how rest hi hst hc =>
      have hx1 := (react_aux { w with stack := rest } (.complete u)).1
      have hx2 := (react_aux (react { w with stack := rest } (.complete u)) (.join u)).1
      refine hgen (new := []) ?_ ?_ (by simp)
      · unfold finishEnd; cases how <;> simp [hx2.log, hx1.log]
      · unfold finishEnd; cases how <;> simp [hx2.fired, hx1.fired]
  · cases he with
    | mk u rest n hi hst hm hc => exact hgen (new := [_]) rfl rfl (by simp)

/-- **C33.** `set()` queues every task waiting for the event, once each and in the order in which
they started waiting, and leaves the event set with nobody waiting. -/
theorem C33_set_wakes_all {w w' : World} {r : Res} {e : Nat}
    (he : exec w (.setE e) = some (w', r)) :
    loopQueue w' = loopQueue w ++ waiters w (.event e) ∧ waiters w' (.event e) = [] ∧
    w'.fired e = true ∧
    (∀ t ∈ waiters w (.event e), (w'.task t).state = .scheduled ∧ (w'.task t).exc = none) ∧
    ∀ t, t ∉ waiters w (.event e) → w'.task t = w.task t := by
  unfold exec at he
  split at he
  · cases he
  cases hi : w.inside
  · simp [hi] at he
  simp only [hi, Option.some.injEq, Prod.mk.injEq] at he
  obtain ⟨he, -⟩ := he
  subst he
  obtain ⟨hx, hc, -⟩ := react_aux (World.addLog { w with fired := upd w.fired e true } (.setE e))
    (.event e)
  unfold setEvent
  refine ⟨?_, ?_, ?_, ?_, ?_⟩
  · rw [react_loopQueue]; rfl
  · simp [waiters, hc, upd_self]
  · rw [hx.fired]; simp [World.addLog, upd_self]
  · intro t ht
    obtain ⟨k, hk⟩ := react_task_on (World.addLog { w with fired := upd w.fired e true } (.setE e))
      (.event e) t ht
    rw [hk]; exact ⟨rfl, rfl⟩
  · intro t ht
    rw [react_task_off _ _ _ (show ¬ On (World.addLog { w with fired := upd w.fired e true }
      (.setE e)) (.event e) t from ht)]
    rfl

/-- **C33.** Nobody waits for an event that is set. -/
theorem C33_nobody_waits_for_set_event {w : World} (h : Reach w) {e : Nat}
    (hf : w.fired e = true) : waiters w (.event e) = [] := by
  obtain ⟨D, hg⟩ := h.good
  have := hg.trg.trig (.event e)
  simp only [TrigOk] at this
  simp [waiters, this hf]

/-- **C33.** Waiting for an event that is set does not block; waiting for one that is not does. -/
theorem C33_wait_blocks_iff_not_set {w w' : World} {r : Res} {t e : Nat} {rest : List Frame}
    {f : Bool} (h : Reach w) (hst : w.stack = .running t :: rest) (hm : (w.task t).mustCancel = 0)
    (he : exec w (.await (.event e) f) = some (w', r)) :
    (w.fired e = true → (w'.task t).state = .scheduled ∧ (w'.task t).exc = none) ∧
    (w.fired e = false → (w'.task t).state = .pending ∧
      waiters w' (.event e) = waiters w (.event e) ++ [t]) := by
  have he0 := he
  unfold exec at he
  split at he
  · cases he
  cases hi : w.inside
  · simp [hi] at he
  simp only [hi, hst, execCoro, awaitRefused, Bool.false_eq_true, if_false, Option.some.injEq,
    Prod.mk.injEq] at he
  obtain ⟨he, hr⟩ := he
  constructor
  · intro hf
    have hc := C33_nobody_waits_for_set_event h hf
    simp only [waiters, List.map_eq_nil_iff] at hc
    exact await_ready hst hm hc (Or.inl ⟨e, rfl, hf⟩) he0 hr.symm
  · intro hf
    subst he
    simp only [suspendOn, hm, gt_iff_lt, Nat.lt_irrefl, if_false, register, World.addLog,
      World.setTask]
    split
    · simp [prime, hf, upd_self, waiters]
    · simp [upd_self, waiters]

/-- **C33.** A task waiting for an event is woken only by `set()` of that event (or by being
cancelled or killed). -/
theorem C33_woken_only_by_set {w w' : World} {a : Act} {r : Res} (h : Reach w)
    (he : exec w a = some (w', r)) {t e : Nat} (hs : (w.task t).state = .pending)
    (hw : t ∈ waiters w (.event e)) (hs' : (w'.task t).state ≠ .pending) :
    a = .setE e ∨ a = .cancel t ∨ a = .kill t ∨ a = .cancelNow t := by
  obtain ⟨D, hg⟩ := h.good
  have hreg := (hg.inv.ok t (by simp)).reg
  rcases hg.woken (exec_step he).2 hs with h1 | h1 | ⟨g, h1, h2⟩
  · exact absurd h1.1 hs'
  · exact Or.inr h1
  · left
    have hdead : ∀ g', (∀ n, g' ≠ .gpi n) → ¬ D g' := fun g' h => hg.inv.gpiDead h
    have huniq : ¬ D g → g = .event e := by
      intro hgD
      obtain ⟨⟨k1, u1⟩, m1, rfl⟩ := List.mem_map.1 h2
      obtain ⟨⟨k2, u2⟩, m2, e2⟩ := List.mem_map.1 hw
      simp only at e2; subst e2
      have e1 := (hreg g k1 m1 hgD).2
      have e2 := (hreg (.event e) k2 m2 (hdead _ (by simp))).2
      rw [e1] at e2
      simp only [Option.some.injEq, Prod.mk.injEq] at e2
      exact e2.1
    cases a <;> simp only [firesOn, List.mem_singleton, List.not_mem_nil] at h1
    case fire n =>
      subst h1
      exfalso
      have hpr : w.primed n = true := (exec_fire he).1
      have := huniq (hg.primed n hpr)
      cases this
    case setE e' =>
      subst h1
      have := huniq (hdead _ (by simp))
      cases this; rfl
    case release l =>
      split at h1
      · simp only [List.mem_singleton] at h1; subst h1
        have := huniq (hdead _ (by simp)); cases this
      · cases h1
    case cbStep =>
      split at h1
      · split at h1
        · simp only [List.mem_cons, List.not_mem_nil, or_false] at h1
          rcases h1 with rfl | rfl <;> (have := huniq (hdead _ (by simp)); cases this)
        · cases h1
      · cases h1

example : let w := (run init [.enter, .startSoon 0, .startSoon 1, .pop, .await (.event 2) false,
      .pop]).getD init
    waiters w (.event 2) = [0] ∧ w.stack = [.running 1] ∧ w.fired 2 = false ∧
    (exec w (.setE 2)).map (fun p => loopQueue p.1) = some [0] := by decide

/-! ### C34, C35 -/

/-- **C34, C35.** In every history, the requests, withdrawals, grants and releases of a lock are
those of a first-come first-served mutex: a grant is made only while nobody holds the lock and only
to the oldest waiting request, a release only of a held lock; and `locked()` is true exactly while
somebody holds it. -/
theorem C34_lock_is_a_mutex {w : World} (h : Reach w) (l : Nat) :
    ∃ m, mutex l w.log = some m ∧ m.holder = (w.lock l).current ∧ m.waiting = (w.lock l).pending :=
  ⟨_, minv h l, rfl, rfl⟩

def grants (l : Nat) (log : List Obs) : Nat :=
  log.countP fun o => match o with | .grant l' _ => l' == l | _ => false

def releases (l : Nat) (log : List Obs) : Nat :=
  log.countP fun o => match o with | .rel l' => l' == l | _ => false

/-- **C34.** At any time the number of grants not yet released is 1 if the lock is locked, else 0. -/
theorem C34_at_most_one_holder {w : World} (h : Reach w) (l : Nat) :
    grants l w.log = releases l w.log + (if (w.lock l).current = none then 0 else 1) := by
  have key : ∀ (log : List Obs) (m m' : Mutex), log.foldlM (mutexStep l) m = some m' →
      grants l log + (if m.holder = none then 0 else 1) =
        releases l log + (if m'.holder = none then 0 else 1) := by
    intro log
    induction log with
    | nil => intro m m' h; cases h; simp [grants, releases]
    | cons o log ih =>
      intro m m' h
      rw [List.foldlM_cons] at h
      cases h1 : mutexStep l m o with
      | none => rw [h1] at h; cases h
      | some m1 =>
        rw [h1] at h
        have := ih m1 m' h
        unfold grants releases at *
        rw [List.countP_cons, List.countP_cons]
        cases o <;> simp only [mutexStep, Option.some.injEq, Bool.false_eq_true, if_false,
          Nat.add_zero] at h1 ⊢
        case req =>
          repeat' split at h1
          all_goals (cases h1; first | done | exact this)
        case drop =>
          repeat' split at h1
          all_goals (cases h1; first | done | exact this)
        case grant l' n =>
          split at h1
          · split at h1
            · rename_i h2 h3
              cases h1
              simp only [reduceCtorEq, if_false] at this
              simp [h2, h3.1]
              omega
            · cases h1
          · rename_i h2
            cases h1
            simp [h2]; omega
        case rel l' =>
          split at h1
          · split at h1
            · cases h1
            · rename_i h2 h3
              cases h1
              simp only [if_true] at this
              simp [h2, h3]
              omega
          · rename_i h2
            cases h1
            simp [h2]; omega
        all_goals (subst h1; exact this)
  obtain ⟨m, h1, h2, -⟩ := C34_lock_is_a_mutex h l
  have := key w.log {} m h1
  rw [h2] at this
  simpa using this

/-- **C34.** Releasing a lock nobody holds raises `RuntimeError` and changes nothing. -/
theorem C34_release_unlocked_raises (w : World) (l : Nat) (hh : w.halted = false)
    (hi : w.inside = true) (hc : (w.lock l).current = none) :
    exec w (.release l) = some (w, .raisedRuntime) := by
  simp [exec, hh, hi, release, hc]

/-- **C35.** Nobody waits for a lock that is free: a release hands the lock over at once, so no
newcomer can overtake. -/
theorem C35_free_lock_has_no_waiters {w : World} (h : Reach w) (l : Nat)
    (hc : (w.lock l).current = none) : (w.lock l).pending = [] ∧ ∀ n, waiters w (.lock l n) = [] := by
  obtain ⟨D, hg⟩ := h.good
  have hp := (hg.trg.lock l).free hc
  refine ⟨hp, fun n => ?_⟩
  have := (hg.trg.trig (.lock l n)).1
  rw [hp] at this
  by_cases hcb : w.cbs (.lock l n) = []
  · simp [waiters, hcb]
  · simp [hcb] at this

/-- **C35.** `release()` with waiting requests grants the lock to the oldest one, and queues the
task waiting with it. -/
theorem C35_release_grants_oldest {w w' : World} {r : Res} {l m n : Nat} {ns : List Nat}
    (h : Reach w) (hc : (w.lock l).current = some m) (hp : (w.lock l).pending = n :: ns)
    (he : exec w (.release l) = some (w', r)) :
    (w'.lock l).current = some n ∧ (w'.lock l).pending = ns ∧
    ∃ t, waiters w (.lock l n) = [t] ∧ (w'.task t).state = .scheduled ∧ (w'.task t).exc = none := by
  obtain ⟨D, hg⟩ := h.good
  unfold exec at he
  split at he
  · cases he
  cases hi : w.inside
  · simp [hi] at he
  simp only [hi, release, hc, reduceCtorEq, if_false, hp, Option.some.injEq, Prod.mk.injEq] at he
  obtain ⟨he, -⟩ := he
  subst he
  have ht := hg.trg.trig (.lock l n)
  simp only [TrigOk] at ht
  have hone : ∃ k t, w.cbs (.lock l n) = [(k, t)] := by
    have h1 := ht.1.1 (by simp [hp])
    cases hcb : w.cbs (.lock l n) with
    | nil => exact absurd hcb h1
    | cons p q =>
      have := ht.2
      rw [hcb] at this
      simp only [List.length_cons] at this
      have : q = [] := List.eq_nil_of_length_eq_zero (by omega)
      exact ⟨p.1, p.2, by rw [this]⟩
  obtain ⟨k, t, hk⟩ := hone
  refine ⟨?_, ?_, t, by simp [waiters, hk], ?_⟩
  · simp [acquireAndFire, (react_aux _ _).1.lock, World.addLog, World.setLock, upd_self]
  · simp [acquireAndFire, (react_aux _ _).1.lock, World.addLog, World.setLock, upd_self]
  · unfold acquireAndFire
    rw [react_one _ _ k t (by simp [World.addLog, World.setLock, hk])]
    simp [scheduleResume, upd_self]

theorem foldlM_append_some {α β : Type} {f : β → α → Option β} {b b' : β} {x y : List α}
    (h : (x ++ y).foldlM f b = some b') :
    ∃ c, x.foldlM f b = some c ∧ y.foldlM f c = some b' := by
  rw [List.foldlM_append] at h
  cases hx : x.foldlM f b with
  | none => rw [hx] at h; cases h
  | some c => rw [hx] at h; exact ⟨c, rfl, h⟩

/-- While request `m` is neither granted nor withdrawn it stays in line, and the part of the line up
to some point behind it is only joined at its end. -/
theorem line_stays {l m : Nat} (c : List Obs) (s s' : Mutex) (h : c.foldlM (mutexStep l) s = some s')
    (h1 : Obs.grant l m ∉ c) (h2 : Obs.drop l m ∉ c) (X Y : List Nat) (hw : s.waiting = X ++ Y)
    (hm : m ∈ X) : ∃ X' Y', s'.waiting = X' ++ Y' ∧ m ∈ X' ∧ ∀ n ∈ X', n ∈ X := by
  induction c generalizing s X Y with
  | nil => cases h; exact ⟨X, Y, hw, hm, fun _ h => h⟩
  | cons o c ih =>
    rw [List.foldlM_cons] at h
    cases hs : mutexStep l s o with
    | none => rw [hs] at h; cases h
    | some s1 =>
      rw [hs] at h
      have ih := ih s1 h (fun h => h1 (by simp [h])) (fun h => h2 (by simp [h]))
      cases o <;> simp only [mutexStep] at hs
      case req l' k =>
        repeat' split at hs
        all_goals first | (cases hs; done) | skip
        · cases hs; exact ih X (Y ++ [k]) (by simp [hw]) hm
        · cases hs; exact ih X Y hw hm
      case drop l' k =>
        split at hs
        · rename_i hl
          subst hl
          have hkm : k ≠ m := by rintro rfl; exact h2 (by simp)
          split at hs
          · cases hs
            by_cases hk : k ∈ X
            · obtain ⟨X', Y', e1, e2, e3⟩ := ih (X.erase k) Y
                (by simp only [hw, List.erase_append, hk, if_true])
                ((List.mem_erase_of_ne (Ne.symm hkm)).2 hm)
              exact ⟨X', Y', e1, e2, fun n hn => List.mem_of_mem_erase (e3 n hn)⟩
            · exact ih X (Y.erase k) (by simp only [hw, List.erase_append, hk, if_false]) hm
          · cases hs
        · cases hs; exact ih X Y hw hm
      case grant l' k =>
        split at hs
        · rename_i hl
          subst hl
          have hkm : k ≠ m := by rintro rfl; exact h1 (by simp)
          split at hs
          · rename_i hc
            cases hs
            cases X with
            | nil => cases hm
            | cons x X =>
              rw [hw] at hc
              simp only [List.cons_append, List.head?_cons, Option.some.injEq] at hc
              have hmX : m ∈ X := by
                rcases List.mem_cons.1 hm with h | h
                · exact absurd (h.trans hc.2).symm hkm
                · exact h
              obtain ⟨X', Y', e1, e2, e3⟩ := ih X Y (by simp [hw]) hmX
              exact ⟨X', Y', e1, e2, fun n hn => by simp [e3 n hn]⟩
          · cases hs
        · cases hs; exact ih X Y hw hm
      case rel l' =>
        repeat' split at hs
        all_goals first | (cases hs; done) | skip
        · cases hs; exact ih X Y hw hm
        · cases hs; exact ih X Y hw hm
      all_goals (cases hs; exact ih X Y hw hm)

/-- **C35.** First come, first served: when request `n` is granted, every request `m` made before it
has been granted or withdrawn. -/
theorem C35_first_come_first_served {w : World} (h : Reach w) {l m n : Nat} {a b c d : List Obs}
    (hl : w.log = a ++ .req l m :: b ++ .req l n :: c ++ .grant l n :: d) :
    Obs.grant l m ∈ b ++ .req l n :: c ∨ Obs.drop l m ∈ b ++ .req l n :: c := by
  obtain ⟨mm, hmm, -, -⟩ := C34_lock_is_a_mutex h l
  unfold mutex at hmm
  rw [hl] at hmm
  rw [show a ++ .req l m :: b ++ .req l n :: c ++ .grant l n :: d =
    (a ++ [.req l m]) ++ (b ++ ([.req l n] ++ (c ++ ([.grant l n] ++ d)))) by simp] at hmm
  obtain ⟨s1, f1, hmm⟩ := foldlM_append_some hmm
  obtain ⟨s2, f2, hmm⟩ := foldlM_append_some hmm
  obtain ⟨s3, f3, hmm⟩ := foldlM_append_some hmm
  obtain ⟨s4, f4, hmm⟩ := foldlM_append_some hmm
  obtain ⟨s5, f5, -⟩ := foldlM_append_some hmm
  by_cases hg : Obs.grant l m ∈ b ++ .req l n :: c
  · exact Or.inl hg
  by_cases hd : Obs.drop l m ∈ b ++ .req l n :: c
  · exact Or.inr hd
  exfalso
  simp only [List.mem_append, List.mem_cons, not_or] at hg hd
  obtain ⟨s0, -, f1⟩ := foldlM_append_some f1
  have h1 : m ∈ s1.waiting := by
    simp only [List.foldlM_cons, List.foldlM_nil, mutexStep, if_true] at f1
    split at f1
    · cases f1
    · simp only [bind_pure, Option.some.injEq] at f1
      subst f1; simp
  have h2 : m ∈ s2.waiting := by
    obtain ⟨X, Y, e1, e2, -⟩ := line_stays b s1 s2 f2 hg.1 hd.1 s1.waiting [] (by simp) h1
    simp [e1, e2]
  have h3 : s3.waiting = s2.waiting ++ [n] ∧ n ∉ s2.waiting := by
    simp only [List.foldlM_cons, List.foldlM_nil, mutexStep, if_true] at f3
    split at f3
    · cases f3
    · rename_i hc
      simp only [bind_pure, Option.some.injEq] at f3
      subst f3
      exact ⟨rfl, fun h => hc (Or.inl h)⟩
  obtain ⟨X, Y, e1, e2, e3⟩ := line_stays c s3 s4 f4 hg.2.2 hd.2.2
    s2.waiting [n] h3.1 h2
  simp only [List.foldlM_cons, List.foldlM_nil, mutexStep, if_true] at f5
  split at f5
  · rename_i hc
    cases X with
    | nil => cases e2
    | cons x X =>
      rw [e1] at hc
      simp only [List.cons_append, List.head?_cons, Option.some.injEq] at hc
      exact h3.2 (e3 n (by simp [hc.2]))
  · cases f5

/-- **C36.** A free lock is obtainable: acquiring it does not block. -/
theorem C36_free_lock_obtainable {w w' : World} {r : Res} {t l n : Nat} {rest : List Frame}
    {f : Bool} (h : Reach w) (hst : w.stack = .running t :: rest) (hm : (w.task t).mustCancel = 0)
    (hc : (w.lock l).current = none) (he : exec w (.await (.lock l n) f) = some (w', r)) :
    (w'.lock l).current = some n ∧ (w'.task t).state = .scheduled ∧ (w'.task t).exc = none := by
  have hw := C35_free_lock_has_no_waiters h l hc
  have hcb : w.cbs (.lock l n) = [] := by simpa [waiters] using hw.2 n
  have he0 := he
  unfold exec at he
  split at he
  · cases he
  cases hi : w.inside
  · simp [hi] at he
  simp only [hi, hst, execCoro, awaitRefused, hc, hw.1, reduceCtorEq, decide_false,
    List.not_mem_nil, Bool.or_self, Bool.false_eq_true, if_false, Option.some.injEq,
    Prod.mk.injEq] at he
  refine ⟨?_, await_ready hst hm hcb
    (Or.inr (Or.inr (Or.inr (Or.inr ⟨l, n, rfl, hc⟩)))) he0 he.2.symm⟩
  obtain ⟨he, -⟩ := he
  subst he
  simp [suspendOn, hm, register, World.addLog, World.setTask, hcb, prime, primeLock, hc,
    acquireAndFire, (react_aux _ _).1.lock, World.setLock, upd_self]

/-- C36 in full: if task `t` began to acquire lock `l` (with acquire object `n`) and that
`acquire()` ended with `CancelledError`, then `l` is not left locked by that acquire. -/
def C36_not_stranded_full : Prop :=
  ∀ w, Reach w → ∀ t l n pre mid,
    w.log = pre ++ [.suspend t (.lock l n)] ++ mid ++ [.resume t (some .cancelled)] →
    execOf t mid = [] → (w.lock l).current ≠ some n

/-- Task 0 holds the lock, task 1 waits for it; task 0 releases it, which grants it to task 1, and
cancels task 1 before it runs: the lock stays locked by an acquire that never returned. -/
theorem C36_not_stranded_counterexample : ¬ C36_not_stranded_full := by
  intro h
  have hr : Reach ((run init [.enter, .startSoon 0, .startSoon 1, .pop, .await (.lock 0 0) false,
      .pop, .await (.lock 0 1) false, .pop, .release 0, .cancel 1, .await (.gpi 0) false,
      .pop]).getD init) :=
    ⟨[.enter, .startSoon 0, .startSoon 1, .pop, .await (.lock 0 0) false,
      .pop, .await (.lock 0 1) false, .pop, .release 0, .cancel 1, .await (.gpi 0) false, .pop], rfl⟩
  refine h _ hr 1 0 1
    [.start 0, .start 1, .resume 0 none, .suspend 0 (.lock 0 0), .req 0 0, .grant 0 0,
      .resume 1 none]
    [.req 0 1, .resume 0 none, .rel 0, .grant 0 1, .suspend 0 (.gpi 0)] ?_ ?_ ?_
  · decide
  · decide
  · decide

/-- **C36, partial**: an acquire cancelled while it still waits in line leaves no trace: its
request is withdrawn and will never be granted, unless the same acquire object is awaited again.
Missing: a task cancelled after the lock was granted to it but before it ran again keeps the lock
(see the counterexample). -/
theorem C36_cancelled_waiter_partial {w w1 w2 : World} {t l n : Nat} {r : Res} {as : List Act}
    (h : Reach w) (hs : (w.task t).state = .pending) (hw : t ∈ waiters w (.lock l n))
    (hc : exec w (.cancel t) = some (w1, r)) (hr : run w1 as = some w2)
    (ha : ∀ f, Act.await (.lock l n) f ∉ as) :
    (w2.lock l).current ≠ some n ∧ n ∉ (w2.lock l).pending ∧ waiters w2 (.lock l n) = [] := by
  obtain ⟨D, hg⟩ := h.good
  -- after the cancellation
  have h1 : (w1.lock l).current ≠ some n ∧ n ∉ (w1.lock l).pending := by
    obtain ⟨⟨k, u⟩, hm, hu⟩ := List.mem_map.1 hw
    simp only at hu; subst hu
    have hreg := ((hg.inv.ok u (by simp)).reg _ _ hm (hg.inv.gpiDead (by simp))).2
    have ht := hg.trg.trig (.lock l n)
    simp only [TrigOk] at ht
    have hpend : n ∈ (w.lock l).pending := ht.1.2 (by intro h; simp [h] at hm)
    have hone : w.cbs (.lock l n) = [(k, u)] := by
      cases hcb : w.cbs (.lock l n) with
      | nil => simp [hcb] at hm
      | cons p q =>
        have := ht.2
        rw [hcb] at this hm
        simp only [List.length_cons] at this
        have : q = [] := List.eq_nil_of_length_eq_zero (by omega)
        subst this
        simp only [List.mem_singleton] at hm
        rw [hm]
    rcases (exec_step hc).2 with hst | hst
    · cases hst with
      | nop _ _ hi hrr =>
        exfalso
        obtain ⟨w3, h3⟩ := (C31_cancel_returns_true_iff h (exec_step hc).1 hi u).2
          ⟨by simp [World.done, hs, TState.isDone], by simp [hs]⟩
        rw [hc] at h3
        simp only [Option.some.injEq, Prod.mk.injEq] at h3
        exact hrr h3.2
      | cancelPending _ w3 hi hs' hd =>
        rw [hreg] at hd
        obtain ⟨d1, d2, d3⟩ := deregister_cases hd
        rcases d3 with ⟨-, d3⟩ | ⟨d3, -⟩
        · simp only [unprime, unprimeLock, hpend, if_true, Option.some.injEq] at d3
          subst d3
          simp only [bumpCancel, World.setTask, scheduleResume, World.addLog, World.setLock,
            upd_self]
          refine ⟨fun hcur => (hg.trg.lock l).cur n hcur hpend, ?_⟩
          rw [(hg.trg.lock l).nd.mem_erase_iff]
          simp
        · exfalso; apply d3; rw [hone]; simp
      | cancelScheduled _ hi hs' => rw [hs] at hs'; cases hs'
      | cancelUnstarted _ hi hs' => rw [hs] at hs'; cases hs'
      | finish _ _ _ _ _ _ _ _ hce => simp [coroEnd] at hce
    · cases hst
  -- kept by every action except awaiting that object
  have key : ∀ (as : List Act) (v : World), Reach v →
      ((v.lock l).current ≠ some n ∧ n ∉ (v.lock l).pending) → run v as = some w2 →
      (∀ f, Act.await (.lock l n) f ∉ as) →
      (w2.lock l).current ≠ some n ∧ n ∉ (w2.lock l).pending := by
    intro as
    induction as with
    | nil => intro v _ hv hr _; cases hr; exact hv
    | cons a as ih =>
      intro v hrv hv hr ha
      simp only [run] at hr
      split at hr
      · rename_i v1 r' he
        refine ih v1 (hrv.exec he) ?_ hr (fun f hm => ha f (by simp [hm]))
        have ha' : ∀ f, a ≠ .await (.lock l n) f := fun f hf => ha f (by simp [hf])
        exact NoReq.step hv ha' (exec_step he).2
      · cases hr
  have h2 := key as w1 (h.exec hc) h1 hr ha
  refine ⟨h2.1, h2.2, ?_⟩
  obtain ⟨D2, hg2⟩ := ((h.exec hc).run hr).good
  have ht := (hg2.trg.trig (.lock l n)).1
  by_cases hcb : w2.cbs (.lock l n) = []
  · simp [waiters, hcb]
  · exact absurd (ht.2 hcb) h2.2

example : let w := (run init [.enter, .startSoon 0, .startSoon 1, .pop, .await (.lock 0 0) false,
      .pop, .await (.lock 0 1) false, .pop]).getD init
    (w.task 1).state = .pending ∧ waiters w (.lock 0 1) = [1] ∧ (w.lock 0).current = some 0 ∧
    (w.lock 0).pending = [1] ∧
    ((exec w (.cancel 1)).map fun p => (p.1.lock 0).pending) = some [] := by decide

end Verif
