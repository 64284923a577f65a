import Verif.Props.SchedTask
import Verif.Lemmas.SchedDone

/-! Completion is announced exactly once: C30. -/

namespace Verif

open Sched SchedSpec

/-- The announcement of the end of `t` is still going on: `t` is done, but control is still in the
code calling its done callbacks and waking its waiters. -/
def announcing (w : World) (t : Nat) : Prop := ∃ i how, .finishing t i how ∈ w.stack

/-- The tasks registered with a trigger, oldest first. -/
def waiters (w : World) (g : Trig) : List Nat := (w.cbs g).map Prod.snd

/-- Nothing is left to do when control is with the simulator. -/
theorem outside_empty {w : World} (h : Reach w) :
    w.inside = false → w.stack = [] ∧ w.queue = [] := by
  refine h.induct (P := fun w => w.inside = false → w.stack = [] ∧ w.queue = [])
    (fun _ => ⟨rfl, rfl⟩) ?_
  intro D w w' a r hg hp _ he hi'
  rcases he with he | he
  · cases he with
    | exit hi hst hq => exact ⟨hst, hq⟩
    | enter => cases hi'
    | fire n hi hp =>
      rw [(react_aux _ _).1.inside] at hi'; cases hi'
    | popCancelled e rest hi => rw [hi] at hi'; cases hi'
    | popRun e rest hi => rw [resume] at hi'; rw [hi] at hi'; cases hi'
    | nop _ _ hi => rw [hi] at hi'; cases hi'
    | startSoon t hi => exact absurd (hi.symm.trans hi') (by simp)
    | startNext t hi => exact absurd (hi.symm.trans hi') (by simp)
    | cancelPending t w1 hi hs hd =>
      have := (deregister_task hd).2.2.2.1
      exact absurd ((this.trans hi).symm.trans hi') (by simp)
    | cancelScheduled t hi => exact absurd (hi.symm.trans hi') (by simp)
    | cancelUnstarted t hi => exact absurd (hi.symm.trans hi') (by simp)
    | kill t w1 hi hnd hnr hd =>
      have := (detach_task hd).2.2.1
      exact absurd ((this.trans hi).symm.trans hi') (by simp)
    | cancelNow t w1 hi hnd hnr hd =>
      have := (detach_task hd).2.2.1
      rw [show (if (w.task t).state = .unstarted then w.addLog (.start t) else w).inside = w.inside
        by split <;> rfl] at this
      exact absurd ((this.trans hi).symm.trans hi') (by simp)
    | uncancel t hi => exact absurd (hi.symm.trans hi') (by simp)
    | addCbDone t hi => exact absurd (hi.symm.trans hi') (by simp)
    | addCb t hi => exact absurd (hi.symm.trans hi') (by simp)
    | setE e hi =>
      unfold setEvent at hi'
      rw [(react_aux _ _).1.inside] at hi'; exact absurd (hi.symm.trans hi') (by simp)
    | clearE e hi => exact absurd (hi.symm.trans hi') (by simp)
    | release l m hi => exact absurd (hi.symm.trans hi') (by simp)
    | releaseGrant l m n ns hi =>
      unfold acquireAndFire at hi'
      rw [(react_aux _ _).1.inside] at hi'; exact absurd (hi.symm.trans hi') (by simp)
    | await u rest g fails hi hst hr hm =>
      have hs := (hg.stk.run u).1 (by simp [hst])
      have hX : Inv D { w with stack := rest } [u] :=
        (hg.inv.addX (t := u) (by rw [hs]; exact not_waiting_running)).congr rfl rfl rfl rfl rfl
      have := (register_task (t := u) (g := g)
        (w := (World.setTask { w with stack := rest } u
            { w.task u with state := .pending }).addLog (.suspend u g))
        (Inv.log (hX.setTaskX (by simp)) _)
        (by simp [World.addLog, World.setTask, upd_self])).2.2.1
      dsimp only at hi'
      rw [this] at hi'
      exact absurd (hi.symm.trans hi') (by simp)
    | yieldBad t rest hi => exact absurd (hi.symm.trans hi') (by simp)
    | finish _ t rest s o how hi => exact absurd (hi.symm.trans hi') (by simp)
    | cbNext t i how rest c hi => exact absurd (hi.symm.trans hi') (by simp)
    | cbEnd t i how rest hi hst hc =>
      have hx1 := (react_aux { w with stack := rest } (.complete t)).1
      have hx2 := (react_aux (react { w with stack := rest } (.complete t)) (.join t)).1
      have : (finishEnd { w with stack := rest } t how).inside = w.inside := by
        unfold finishEnd; cases how <;> simp [hx2.inside, hx1.inside]
      exact absurd ((this.trans hi).symm.trans hi') (by simp)
  · cases he with
    | mk t rest n hi => exact absurd (hi.symm.trans hi') (by simp)

theorem announcing_inside {w : World} (h : Reach w) : w.inside = false → w.stack = [] :=
  fun hi => (outside_empty h hi).1

/-- **C30.** Once a task is done and its end has been announced, every done callback that had been
registered before it was done has been called exactly once, and these calls happened in the order
of registration. -/
theorem C30_every_callback_once_partial {w : World} (h : Reach w) {t : Nat} (hd : w.done t = true)
    (ha : ¬ announcing w t) :
    (called t w.log).filter (· ∈ registeredBefore t w.log) = registeredBefore t w.log ∧
    ∀ c ∈ registeredBefore t w.log, (called t w.log).count c = 1 := by
  have hi := doneInv h t
  have h1 := hi.over hd (fun i how hm => ha ⟨i, how, hm⟩)
  refine ⟨h1, fun c hc => ?_⟩
  have hnd : (registeredBefore t w.log).Nodup := hi.pre.sublist.nodup hi.nd
  have h2 : ((called t w.log).filter (· ∈ registeredBefore t w.log)).count c = 1 := by
    unfold calledOld at h1
    rw [h1, List.Nodup.count hnd, if_pos hc]
  rwa [List.count_filter (by simpa using hc)] at h2

/-- **C30.** No done callback is called before the task is done. -/
theorem C30_no_callback_before_done {w : World} (h : Reach w) {t : Nat} (hd : w.done t = false) :
    called t w.log = [] :=
  (doneInv h t).notCalled hd

/-- **C30.** The announcement is over whenever control is back in the simulator. -/
theorem C30_announced_before_time_advances {w : World} (h : Reach w) (hi : w.inside = false)
    (t : Nat) : ¬ announcing w t := by
  rintro ⟨i, how, hm⟩
  rw [announcing_inside h hi] at hm
  cases hm

/-- **C30.** When the end of a task has been announced nobody is left waiting for it: neither with
`await task`/`await task.complete` nor with `task.join()`. -/
theorem C30_nobody_left_waiting {w : World} (h : Reach w) {t : Nat} (hd : w.done t = true)
    (ha : ¬ announcing w t) : waiters w (.complete t) = [] ∧ waiters w (.join t) = [] := by
  obtain ⟨D, hg⟩ := h.good
  have h1 := hg.trg.trig (.complete t)
  have h2 := hg.trg.trig (.join t)
  simp only [TrigOk] at h1 h2
  constructor
  · by_cases hc : w.cbs (.complete t) = []
    · simp [waiters, hc]
    · exact absurd (h1 hc hd) ha
  · by_cases hc : w.cbs (.join t) = []
    · simp [waiters, hc]
    · exact absurd (h2 hc hd) ha

/-- C30 for all done callbacks, in full: each is called exactly once, also those registered when
the task is already done. -/
def C30_every_callback_once_full : Prop :=
  ∀ w, Reach w → ∀ t, w.done t = true → ¬ announcing w t →
    ∀ c ∈ registered t w.log, (called t w.log).count c = 1

/-- A callback registered by a done callback of the same task is called on registration and again
when the loop reaches it. -/
theorem C30_every_callback_once_counterexample : ¬ C30_every_callback_once_full := by
  intro h
  have hr : Reach ((run init [.enter, .startSoon 0, .pop, .addCb 0, .ret 0, .cbStep, .addCb 0,
      .cbStep, .cbStep]).getD init) :=
    ⟨[.enter, .startSoon 0, .pop, .addCb 0, .ret 0, .cbStep, .addCb 0, .cbStep, .cbStep], rfl⟩
  have := h _ hr 0 (by decide) (by
    rintro ⟨i, how, hm⟩
    have : ((run init [.enter, .startSoon 0, .pop, .addCb 0, .ret 0, .cbStep, .addCb 0,
      .cbStep, .cbStep]).getD init).stack = [] := by decide
    rw [this] at hm; cases hm) 1 (by decide)
  revert this
  decide

example : let w := (run init [.enter, .startSoon 0, .pop, .addCb 0, .addCb 0, .ret 0, .cbStep,
      .cbStep, .cbStep, .addCb 0]).getD init
    w.done 0 = true ∧ w.stack = [] ∧ registeredBefore 0 w.log = [0, 1] ∧
      called 0 w.log = [0, 1, 2] := by decide

end Verif
