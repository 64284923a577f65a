import Verif.Props.SchedSync

/-! What a log says about why a task was woken, and which triggers fired. -/

namespace Verif

open Sched SchedSpec

namespace Sched

variable {D : Trig → Prop}

/-- The number of the trigger an observation reports to have fired. -/
def fireOf : Obs → Option Nat
  | .fire n => some n
  | _ => none

theorem fires_lockish {l : List Obs} (h : ∀ o ∈ l, o.lockish = true) : l.filterMap fireOf = [] := by
  apply List.filterMap_eq_nil_iff.2
  intro o ho
  have := h o ho
  cases o <;> simp_all [Obs.lockish, fireOf]

/-- The firings in the log are the simulator's. -/
theorem fires_new {w w' : World} {a : Act} {r : Res} (hg : Good D w)
    (he : Step w a w' r ∨ FailStep w a w' r) {new : List Obs} (hl : w'.log = w.log ++ new) :
    (∃ n, a = .fire n ∧ new = [.fire n]) ∨ ((∀ n, a ≠ .fire n) ∧ new.filterMap fireOf = []) ∨
      (w' = w ∧ new = []) := by
  have hno : ∀ {l : List Obs}, w'.log = w.log ++ l → (∀ n, a ≠ .fire n) → l.filterMap fireOf = [] →
      (∃ n, a = .fire n ∧ new = [.fire n]) ∨ ((∀ n, a ≠ .fire n) ∧ new.filterMap fireOf = []) ∨
      (w' = w ∧ new = []) := by
    intro l h1 h2 h3
    rw [hl] at h1
    rw [List.append_cancel_left h1]
    exact Or.inr (Or.inl ⟨h2, h3⟩)
  rcases he with he | he
  case inr => cases he; exact hno (l := [_]) rfl (by simp) (by simp [fireOf])
  have hX : ∀ t rest, w.stack = .running t :: rest → Inv D { w with stack := rest } [t] := by
    intro t rest hst
    have hs := (hg.stk.run t).1 (by simp [hst])
    exact (hg.inv.addX (t := t) (by rw [hs]; exact not_waiting_running)).congr rfl rfl rfl rfl rfl
  cases he with
  | enter => exact hno (l := []) (by simp) (by simp) rfl
  | fire n hi hp =>
    left
    refine ⟨n, rfl, ?_⟩
    rw [(react_aux _ _).1.log] at hl
    exact (List.append_cancel_left hl).symm
  | nop => right; right; exact ⟨rfl, by simpa using hl⟩
  | popCancelled => exact hno (l := []) (by simp) (by simp) rfl
  | popRun e rest hi hst hq hc => exact hno (l := [_]) rfl (by simp) (by simp [fireOf])
  | exit => exact hno (l := []) (by simp) (by simp) rfl
  | startSoon => exact hno (l := [_]) rfl (by simp) (by simp [fireOf])
  | startNext => exact hno (l := [_]) rfl (by simp) (by simp [fireOf])
  | cancelPending u w1 hi hs hd =>
    obtain ⟨d1, d2, d3, d4, d5, d6, d7, d8, l, d9, d10⟩ := deregister_task hd
    exact hno d9 (by simp) (fires_lockish d10)
  | cancelScheduled => exact hno (l := []) (by simp [bumpCancel, World.setTask]) (by simp) rfl
  | cancelUnstarted => exact hno (l := [_]) rfl (by simp) (by simp [fireOf])
  | kill u w1 hi hnd hnr hd =>
    obtain ⟨d1, d2, d4, d5, d6, d7, d8, l, d9, d10⟩ := detach_task hd
    exact hno (l := l ++ [.done u .finished .noneKilled]) (by simp [setOutcome, d9]) (by simp)
      (by simp [fires_lockish d10, fireOf])
  | cancelNow u w1 hi hnd hnr hd =>
    obtain ⟨d1, d2, d4, d5, d6, d7, d8, l, d9, d10⟩ := detach_task hd
    refine hno (l := (if (w.task u).state = .unstarted then [.start u] else []) ++ l ++
      [.resume u (some .cancelled)]) ?_ (by simp) ?_
    · simp only [resume, bumpCancel, World.setTask, d9, upd_self]
      split <;> simp [World.addLog]
    · rw [List.filterMap_append, List.filterMap_append, fires_lockish d10]
      split <;> simp [fireOf]
  | uncancel => exact hno (l := []) (by simp [Sched.uncancel, World.setTask]) (by simp) rfl
  | addCbDone => exact hno (l := [_, _]) rfl (by simp) (by simp [fireOf])
  | addCb => exact hno (l := [_]) rfl (by simp) (by simp [fireOf])
  | setE e hi =>
    exact hno (l := [.setE e]) (by simp [setEvent, (react_aux _ _).1.log, World.addLog]) (by simp)
      (by simp [fireOf])
  | clearE => exact hno (l := [_]) rfl (by simp) (by simp [fireOf])
  | release => exact hno (l := [_]) rfl (by simp) (by simp [fireOf])
  | releaseGrant l m n ns hi hc hp =>
    exact hno (l := [.rel l, .grant l n])
      (by simp [acquireAndFire, (react_aux _ _).1.log, World.addLog, World.setLock]) (by simp)
      (by simp [fireOf])
  | await u rest g fails hi hst hr hm =>
    obtain ⟨⟨l, e1, e2⟩, -⟩ := register_task (t := u) (g := g)
      (w := (World.setTask { w with stack := rest } u
          { w.task u with state := .pending }).addLog (.suspend u g))
      (Inv.log ((hX u rest hst).setTaskX (by simp)) _)
      (by simp [World.addLog, World.setTask, upd_self])
    refine hno (l := [.suspend u g] ++ l) ?_ (by simp) ?_
    · dsimp only; rw [e1]; simp [World.addLog, World.setTask]
    · rw [List.filterMap_append, fires_lockish e2]; simp [fireOf]
  | yieldBad => exact hno (l := [_]) rfl (by simp) (by simp [fireOf])
  | finish a u rest s o how hi hst he =>
    exact hno (l := [_]) rfl (by rintro n rfl; simp [coroEnd] at he) (by simp [fireOf])
  | cbNext => exact hno (l := [_]) rfl (by simp) (by simp [fireOf])
  | cbEnd u i how rest hi hst hc =>
    refine hno (l := []) ?_ (by simp) rfl
    simp only [finishEnd]
    cases how <;> simp [(react_aux _ _).1.log]

/-- A done task's end is in the log. -/
theorem done_logged {w : World} (h : Reach w) {t : Nat} (hd : (w.task t).state.isDone = true) :
    ∃ s o, .done t s o ∈ w.log := by
  revert hd
  refine h.induct (P := fun w => (w.task t).state.isDone = true → ∃ s o, .done t s o ∈ w.log) ?_ ?_
  · intro h; simp [init, TState.isDone] at h
  · intro D w w' a r hg hp _ he hd
    obtain ⟨new, hlog, hT⟩ := hg.tstep he
    have hT := hT t
    rw [hlog]
    by_cases ho : (w.task t).state.isDone = true
    · obtain ⟨s, o, h⟩ := hp ho
      exact ⟨s, o, List.mem_append_left _ h⟩
    · have : ∃ s o, .done t s o ∈ new.filter (·.about t) := by
        generalize new.filter (·.about t) = obs at hT
        generalize w'.task t = r' at hT hd
        generalize w.task t = r0 at hT ho
        cases hT <;> first
          | (simp [TState.isDone] at hd; done)
          | exact ⟨_, _, List.mem_singleton.2 rfl⟩
          | (simp_all [TState.isDone])
      obtain ⟨s, o, h⟩ := this
      exact ⟨s, o, List.mem_append_right _ (List.mem_filter.1 h).1⟩

end Sched

end Verif
