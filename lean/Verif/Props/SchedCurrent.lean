import Verif.Props.SchedSync

/-! `current_task()`: C74. -/

namespace Verif

open Sched SchedSpec

/-- C74 in full: while the code of task `t` executes, `current_task()` is `t`. -/
def C74_current_task_full : Prop :=
  ∀ w, Reach w → ∀ t rest, w.stack = .running t :: rest → w.current = some t

/-- A task that cancels another one with the immediate form of cancellation (the one a test uses to
end its main task) runs the other coroutine inside its own step, and finds no current task when it
goes on. -/
theorem C74_current_task_counterexample : ¬ C74_current_task_full := by
  intro h
  have hr : Reach ((run init [.enter, .startSoon 0, .startSoon 1, .pop, .await (.gpi 0) false, .pop,
      .cancelNow 0, .raise .cancelled, .cbStep]).getD init) :=
    ⟨[.enter, .startSoon 0, .startSoon 1, .pop, .await (.gpi 0) false, .pop,
      .cancelNow 0, .raise .cancelled, .cbStep], rfl⟩
  have := h _ hr 1 [] (by decide)
  revert this
  decide

/-- Histories in which the immediate form of cancellation is never used from inside a coroutine. -/
inductive Calm : World → Prop
  | init : Calm init
  | step {w w' : World} {a : Act} {r : Res} : Calm w → exec w a = some (w', r) →
    (∀ t, a = .cancelNow t → ∀ u, Frame.running u ∉ w.stack) → Calm w'

theorem Calm.reach {w : World} (h : Calm w) : Reach w := by
  induction h with
  | init => exact ⟨[], rfl⟩
  | step _ he _ ih => exact ih.exec he

def noRunning (st : List Frame) : Prop := ∀ u, Frame.running u ∉ st

def okStack (cur : Option Nat) : List Frame → Prop
  | [] => cur = none
  | .running t :: rest => cur = some t ∧ noRunning rest
  | .finishing _ _ .kill :: rest => okStack cur rest
  | .finishing _ _ _ :: rest => noRunning rest

theorem noRunning.tail {f : Frame} {st : List Frame} (h : noRunning (f :: st)) : noRunning st :=
  fun u hu => h u (by simp [hu])

theorem noRunning.ok {st : List Frame} (h : noRunning st) : okStack none st := by
  induction st with
  | nil => rfl
  | cons f st ih =>
    cases f with
    | running t => exact absurd (List.mem_cons_self ..) (h t)
    | finishing t i how =>
      cases how
      · exact h.tail
      · exact ih h.tail
      · exact h.tail

theorem okStack_fin {cur : Option Nat} {t i how} {rest : List Frame}
    (h : okStack cur (.finishing t i how :: rest)) (j : Nat) :
    okStack cur (.finishing t j how :: rest) := by
  cases how <;> exact h

theorem coroEnd_how {m a s o how} (h : coroEnd m a = some (s, o, how)) : how ≠ .kill := by
  unfold coroEnd at h
  repeat' split at h
  all_goals (cases h <;> simp)

theorem okStack.step {w w' : World} {a : Act} {r : Res} {D : Trig → Prop} (h : okStack w.current w.stack)
    (hg : Good D w) (ha : ∀ t, a = .cancelNow t → noRunning w.stack)
    (he : Step w a w' r ∨ FailStep w a w' r) : okStack w'.current w'.stack := by
  rcases he with he | he
  case inr =>
    cases he with
    | mk u rest n hi hst hm hc =>
      rw [hst] at h
      exact h.2.ok
  cases he with
  | fire m hi hp =>
    have hx := (react_aux ({ w with primed := upd w.primed m false, inside := true }.addLog (.fire m)) (.gpi m)).1
    rw [hx.stack, hx.current]; exact h
  | popRun e rest hi hst hq hc =>
    simp only [resume, hst]
    exact ⟨rfl, by simp [noRunning]⟩
  | cancelPending u w1 hi hu hd =>
    obtain ⟨-, d2, -, -, -, -, -, d8, -⟩ := deregister_task hd
    simp only [bumpCancel, World.setTask, scheduleResume, d2, d8]; exact h
  | kill u w1 hi hnd hnr hd =>
    obtain ⟨-, d2, -, -, -, -, d8, -⟩ := detach_task hd
    simp only [setOutcome, d2, d8]; exact h
  | cancelNow u w1 hi hnd hnr hd =>
    obtain ⟨-, d2, -, -, -, -, d8, -⟩ := detach_task hd
    simp only [resume, bumpCancel, World.setTask, d2]
    refine ⟨rfl, ?_⟩
    have := ha u rfl
    split <;> exact this
  | setE e hi =>
    have hx := (react_aux (World.addLog { w with fired := upd w.fired e true } (.setE e))
      (.event e)).1
    unfold setEvent
    rw [hx.stack, hx.current]; exact h
  | releaseGrant l' m n' ns hi hc hp =>
    simp only [acquireAndFire, (react_aux _ _).1.stack, (react_aux _ _).1.current]
    exact h
  | await u rest g fails hi hst hr hm =>
    have hs := (hg.stk.run u).1 (by simp [hst])
    have hX : Inv D { w with stack := rest } [u] :=
      (hg.inv.addX (t := u) (by rw [hs]; exact not_waiting_running)).congr rfl rfl rfl rfl rfl
    obtain ⟨-, e2, -⟩ := register_task (t := u) (g := g)
      (w := (World.setTask { w with stack := rest } u
          { w.task u with state := .pending }).addLog (.suspend u g))
      (Inv.log (hX.setTaskX (by simp)) _)
      (by simp [World.addLog, World.setTask, upd_self])
    rw [hst] at h
    simp only [e2]
    exact h.2.ok
  | yieldBad u rest hi hst hm =>
    rw [hst] at h
    exact h.2.ok
  | finish _ u rest s o how hi hst hce =>
    rw [hst] at h
    have := coroEnd_how hce
    cases how
    · exact h.2
    · exact absurd rfl this
    · exact h.2
  | cbNext u i how rest c hi hst hc =>
    rw [hst] at h
    exact okStack_fin h _
  | cbEnd u i how rest hi hst hc =>
    have hx1 := (react_aux { w with stack := rest } (.complete u)).1
    have hx2 := (react_aux (react { w with stack := rest } (.complete u)) (.join u)).1
    rw [hst] at h
    unfold finishEnd
    cases how
    · simp only [hx2.stack, hx1.stack]
      exact noRunning.ok h
    · simp only [hx2.stack, hx1.stack, hx2.current, hx1.current]
      exact h
    · simp only [hx2.stack, hx1.stack]
      exact noRunning.ok h
  | _ => exact h

theorem Calm.ok {w : World} (h : Calm w) : okStack w.current w.stack := by
  induction h with
  | init => rfl
  | step hc he ha ih =>
    obtain ⟨D, hg⟩ := hc.reach.good
    exact okStack.step ih hg ha (exec_step he).2

/-- **C74, partial**: in every history in which the immediate form of cancellation (which only the
test manager uses) is not used from inside a coroutine, `current_task()` is the task whose code
executes, and there is none between two steps. Missing: histories with such a use, for which it is
false (see the counterexample). -/
theorem C74_current_task_partial {w : World} (h : Calm w) :
    (∀ t rest, w.stack = .running t :: rest → w.current = some t) ∧
    (w.stack = [] → w.current = none) := by
  have := h.ok
  constructor
  · intro t rest hst
    rw [hst] at this
    exact this.1
  · intro hst
    rw [hst] at this
    exact this

example : ∃ w, Calm w ∧ ∃ t rest, w.stack = .running t :: rest ∧ t = 1 := by
  have h1 := Calm.init.step (a := .enter) rfl (by simp)
  have h2 := h1.step (a := .startSoon 0) rfl (by simp)
  have h3 := h2.step (a := .startSoon 1) rfl (by simp)
  have h4 := h3.step (a := .pop) rfl (by simp)
  have h5 := h4.step (a := .await (.gpi 0) false) rfl (by simp)
  have h6 := h5.step (a := .pop) rfl (by simp)
  exact ⟨_, h6, 1, [], by decide, rfl⟩

end Verif
