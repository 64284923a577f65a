import Verif.Lemmas.SchedTask

namespace Verif.Sched

variable {D : Trig → Prop}

def Frame.tid : Frame → Nat
  | .running t => t
  | .finishing t _ _ => t

structure SInv (w : World) : Prop where
  run : ∀ t, .running t ∈ w.stack ↔ (w.task t).state = .running
  fin : ∀ t i how, .finishing t i how ∈ w.stack → (w.task t).state.isDone = true
  nd : (w.stack.map Frame.tid).Nodup

/-- States change only from pending to scheduled. -/
def StateRel (w w' : World) : Prop :=
  ∀ t, (w'.task t).state = (w.task t).state ∨
    ((w.task t).state = .pending ∧ (w'.task t).state = .scheduled)

theorem SInv.wake {w w' : World} (h : SInv w) (hst : w'.stack = w.stack) (hr : StateRel w w') :
    SInv w' := by
  refine ⟨fun t => ?_, fun t i how hm => ?_, by rw [hst]; exact h.nd⟩
  · rw [hst, h.run t]
    rcases hr t with h1 | ⟨h1, h2⟩
    · rw [h1]
    · rw [h1, h2]; simp
  · rw [hst] at hm
    have := h.fin t i how hm
    rcases hr t with h1 | ⟨h1, h2⟩
    · rw [h1]; exact this
    · rw [h1] at this; cases this

theorem StateRel.react {w v : World} {g : Trig} (h : Inv D w []) (hD : ¬ D g) (hv : v.task = w.task)
    (hc : v.cbs = w.cbs) : StateRel w (react v g) := by
  intro t
  by_cases ho : On w g t
  · obtain ⟨k, hk⟩ := react_task_on v g t (by unfold On; rw [hc]; exact ho)
    right; exact ⟨h.on_pending hD ho, by rw [hk]⟩
  · left; rw [react_task_off v g t (by unfold On; rw [hc]; exact ho), hv]

/-- The stack part of a state change that concerns one task, which is not in the stack, and
does not become running or leave being done. -/
theorem SInv.upd {w w' : World} {t : Nat} (h : SInv w) (hst : w'.stack = w.stack)
    (ho : ∀ u, u ≠ t → (w'.task u).state = (w.task u).state)
    (h1 : (w.task t).state ≠ .running) (h2 : (w.task t).state.isDone = false)
    (h3 : (w'.task t).state ≠ .running) : SInv w' := by
  refine ⟨fun u => ?_, fun u i how hm => ?_, by rw [hst]; exact h.nd⟩
  · rw [hst, h.run u]
    by_cases he : u = t
    · subst he; exact ⟨fun h => absurd h h1, fun h => absurd h h3⟩
    · rw [ho u he]
  · rw [hst] at hm
    have := h.fin u i how hm
    by_cases he : u = t
    · subst he; rw [h2] at this; cases this
    · rw [ho u he]; exact this

theorem SInv.notMem {w : World} {t : Nat} (h : SInv w) (h1 : (w.task t).state ≠ .running)
    (h2 : (w.task t).state.isDone = false) : t ∉ w.stack.map Frame.tid := by
  intro hm
  obtain ⟨f, hf, rfl⟩ := List.mem_map.1 hm
  cases f with
  | running t => exact h1 ((h.run t).1 hf)
  | finishing t i how => have := h.fin t i how hf; simp only [Frame.tid] at h2; rw [h2] at this; cases this

theorem SInv.push {w w' : World} {t : Nat} {f : Frame} (h : SInv w) (hf : f.tid = t)
    (hst : w'.stack = f :: w.stack)
    (ho : ∀ u, u ≠ t → (w'.task u).state = (w.task u).state)
    (h1 : (w.task t).state ≠ .running) (h2 : (w.task t).state.isDone = false)
    (h3 : match f with
      | .running _ => (w'.task t).state = .running
      | .finishing _ _ _ => (w'.task t).state.isDone = true) : SInv w' := by
  have hn := h.notMem h1 h2
  have hnr : ∀ u, u = t → .running u ∉ w.stack := by
    rintro u rfl hm; exact hn (List.mem_map.2 ⟨_, hm, rfl⟩)
  have hnf : ∀ u i how, u = t → .finishing u i how ∉ w.stack := by
    rintro u i how rfl hm; exact hn (List.mem_map.2 ⟨_, hm, rfl⟩)
  refine ⟨fun u => ?_, fun u i how hm => ?_, by rw [hst]; simp [hf, h.nd]; simpa using hn⟩
  · rw [hst, List.mem_cons]
    by_cases he : u = t
    · subst he
      cases f with
      | running s => simp only [Frame.tid] at hf; subst hf; simp at h3; simp [h3]
      | finishing s i how =>
        simp only at h3
        simp only [reduceCtorEq, false_or]
        refine ⟨fun hm => absurd hm (hnr u rfl), fun hs => ?_⟩
        rw [hs] at h3; cases h3
    · rw [ho u he, ← h.run u]
      constructor
      · rintro (h' | h')
        · subst h'; exact absurd hf he
        · exact h'
      · exact Or.inr
  · rw [hst, List.mem_cons] at hm
    by_cases he : u = t
    · rcases hm with hm | hm
      · subst hm; rw [he]; exact h3
      · exact absurd hm (hnf u i how he)
    · rcases hm with hm | hm
      · subst hm; exact absurd hf he
      · rw [ho u he]; exact h.fin u i how hm

theorem SInv.popRun {w : World} {t : Nat} {rest} (h : SInv w)
    (hst : w.stack = .running t :: rest) (w' : World) (hst' : w'.stack = rest)
    (ho : ∀ u, u ≠ t → (w'.task u).state = (w.task u).state ∨
      ((w.task u).state = .pending ∧ (w'.task u).state = .scheduled))
    (h3 : (w'.task t).state ≠ .running) : SInv w' := by
  have hnd := h.nd
  rw [hst] at hnd
  simp only [List.map_cons, List.nodup_cons] at hnd
  have hn : t ∉ rest.map Frame.tid := hnd.1
  refine ⟨fun u => ?_, fun u i how hm => ?_, by rw [hst']; exact hnd.2⟩
  · rw [hst']
    by_cases he : u = t
    · subst he
      exact ⟨fun hm => absurd (List.mem_map.2 ⟨_, hm, rfl⟩) hn, fun hs => absurd hs h3⟩
    · have h1 := h.run u
      rw [hst, List.mem_cons] at h1
      rcases ho u he with h2 | ⟨h2, h4⟩
      · rw [h2, ← h1]; simp [he]
      · rw [h4]; rw [h2] at h1; simp [he] at h1; simp [h1]
  · rw [hst'] at hm
    have h1 := h.fin u i how (by rw [hst]; exact List.mem_cons_of_mem _ hm)
    by_cases he : u = t
    · subst he; exact absurd (List.mem_map.2 ⟨_, hm, rfl⟩) hn
    · rcases ho u he with h2 | ⟨h2, h4⟩
      · rw [h2]; exact h1
      · rw [h2] at h1; cases h1

theorem SInv.step {w w' : World} {a : Act} {r : Res} (h : Inv D w []) (hS : SInv w)
    (hpr : ∀ n, w.primed n = true → ¬ D (.gpi n)) (he : Step w a w' r) : SInv w' := by
  have hX : ∀ t rest, w.stack = .running t :: rest → Inv D { w with stack := rest } [t] := by
    intro t rest hst
    have hs := (hS.run t).1 (by simp [hst])
    exact (h.addX (t := t) (by rw [hs]; exact not_waiting_running)).congr rfl rfl rfl rfl rfl
  have hstop : ∀ {t rest}, w.stack = .running t :: rest → (w.task t).state = .running :=
    fun hst => (hS.run _).1 (by simp [hst])
  cases he with
  | enter => exact hS.wake rfl fun t => Or.inl rfl
  | fire n hi hp => exact hS.wake (react_aux _ _).1.stack (.react h (hpr n hp) rfl rfl)
  | popCancelled e rest hi hst hq hc => exact hS.wake rfl fun t => Or.inl rfl
  | popRun e rest hi hst hq hc =>
    have hs := ((h.ok e.task (by simp)).live e (by simp [hq]) rfl hc).1
    refine hS.push (t := e.task) (f := .running e.task) rfl rfl (fun u hu => ?_) ?_ ?_ ?_
    · simp [resume, upd_ne _ _ hu]
    · rw [hs]; simp
    · rw [hs]; rfl
    · simp [resume, upd_self]
  | exit => exact hS.wake rfl fun t => Or.inl rfl
  | nop => exact hS
  | startSoon t hi hs =>
    refine hS.upd (t := t) rfl (fun u hu => ?_) ?_ ?_ ?_
    · simp [scheduleResume, World.addLog, upd_ne _ _ hu]
    · rw [hs]; simp
    · rw [hs]; rfl
    · simp [scheduleResume, World.addLog, upd_self]
  | startNext t hi hs =>
    refine hS.upd (t := t) rfl (fun u hu => ?_) ?_ ?_ ?_
    · simp [scheduleLeft, World.addLog, upd_ne _ _ hu]
    · rw [hs]; simp
    · rw [hs]; rfl
    · simp [scheduleLeft, World.addLog, upd_self]
  | cancelPending t w1 hi hs hd =>
    obtain ⟨d1, d2, -⟩ := deregister_task hd
    refine hS.upd (t := t) d2 (fun u hu => ?_) ?_ ?_ ?_
    · simp [scheduleResume, bumpCancel, World.setTask, upd_ne _ _ hu, d1]
    · rw [hs]; simp
    · rw [hs]; rfl
    · simp [scheduleResume, bumpCancel, World.setTask, upd_self]
  | cancelScheduled t hi hs =>
    refine hS.upd (t := t) rfl (fun u hu => ?_) ?_ ?_ ?_
    · simp [bumpCancel, World.setTask, upd_ne _ _ hu]
    · rw [hs]; simp
    · rw [hs]; rfl
    · simp [bumpCancel, World.setTask, upd_self, hs]
  | cancelUnstarted t hi hs =>
    refine hS.upd (t := t) rfl (fun u hu => ?_) ?_ ?_ ?_
    · simp [scheduleResume, bumpCancel, World.addLog, World.setTask, upd_ne _ _ hu]
    · rw [hs]; simp
    · rw [hs]; rfl
    · simp [scheduleResume, bumpCancel, World.addLog, World.setTask, upd_self]
  | kill t w1 hi hnd hnr hd =>
    obtain ⟨d1, d2, -⟩ := detach_task hd
    refine hS.push (t := t) (f := .finishing t 0 .kill) rfl (by simp [setOutcome, d2])
      (fun u hu => ?_) hnr hnd ?_
    · simp [setOutcome, upd_ne _ _ hu, d1]
    · simp [setOutcome, upd_self, TState.isDone]
  | cancelNow t w1 hi hnd hnr hd =>
    obtain ⟨d1, d2, -⟩ := detach_task hd
    have d1' : w1.task = w.task := by rw [d1]; split <;> rfl
    have d2' : w1.stack = w.stack := by rw [d2]; split <;> rfl
    refine hS.push (t := t) (f := .running t) rfl
      (by simp [resume, bumpCancel, World.setTask, d2']) (fun u hu => ?_) hnr hnd ?_
    · simp [resume, bumpCancel, World.setTask, upd_ne _ _ hu, d1']
    · simp [resume, upd_self]
  | uncancel t =>
    refine hS.wake rfl fun u => Or.inl ?_
    by_cases hu : u = t
    · subst hu; simp [Sched.uncancel, World.setTask, upd_self]
    · simp [Sched.uncancel, World.setTask, upd_ne _ _ hu]
  | addCbDone t =>
    refine hS.wake rfl fun u => Or.inl ?_
    by_cases hu : u = t
    · subst hu; simp [upd_self]
    · simp [upd_ne _ _ hu]
  | addCb t =>
    refine hS.wake rfl fun u => Or.inl ?_
    by_cases hu : u = t
    · subst hu; simp [upd_self]
    · simp [upd_ne _ _ hu]
  | setE e => exact hS.wake (react_aux _ _).1.stack (.react h (h.gpiDead (by simp)) rfl rfl)
  | clearE => exact hS.wake rfl fun t => Or.inl rfl
  | release => exact hS.wake rfl fun t => Or.inl rfl
  | releaseGrant l m n ns hi hc hp => exact hS.wake (react_aux _ _).1.stack (.react h (h.gpiDead (by simp)) rfl rfl)
  | await u rest g fails hi hst hr hm =>
    have hs := hstop hst
    obtain ⟨-, e0, -, -, -, -, e3, hh, e4⟩ := register_task (t := u) (g := g)
      (w := (World.setTask { w with stack := rest } u
          { w.task u with state := .pending }).addLog (.suspend u g))
      (Inv.log ((hX u rest hst).setTaskX (by simp)) _)
      (by simp [World.addLog, World.setTask, upd_self])
    refine hS.popRun hst _ e0 (fun t ht => ?_) ?_
    · rcases e3 t ht with e3 | ⟨e3, k, e5⟩
      · left; dsimp only; rw [e3]; simp [World.addLog, World.setTask, upd_ne _ _ ht]
      · right; dsimp only; rw [e5]
        simp only [World.addLog, World.setTask, upd_ne _ _ ht] at e3
        exact ⟨e3, rfl⟩
    · rcases e4 with e4 | ⟨k, e4⟩
      · dsimp only; rw [e4]; simp [World.addLog, World.setTask, upd_self]
      · dsimp only; rw [e4]; simp
  | yieldBad t rest hi hst hm =>
    refine hS.popRun hst _ rfl (fun u hu => Or.inl ?_) ?_
    · simp [scheduleResume, World.addLog, upd_ne _ _ hu]
    · simp [scheduleResume, World.addLog, upd_self]
  | finish _ t rest s o how hi hst he =>
    have hs := hstop hst
    have h1 : SInv ({ w with stack := rest }.setTask t { w.task t with state := .unstarted }) :=
      hS.popRun hst _ rfl (fun u hu => Or.inl (by simp [World.setTask, upd_ne _ _ hu]))
        (by simp [World.setTask, upd_self])
    refine h1.push (t := t) (f := .finishing t 0 how) rfl rfl (fun u hu => ?_) ?_ ?_ ?_
    · simp [setOutcome, World.setTask, upd_ne _ _ hu]
    · simp [World.setTask, upd_self]
    · simp [World.setTask, upd_self, TState.isDone]
    · simp [setOutcome, upd_self, coroEnd_done he]
  | cbNext t i how rest c hi hst hc =>
    refine ⟨fun u => ?_, fun u j how' hm => ?_, ?_⟩
    · have := hS.run u
      rw [hst] at this
      simpa [World.addLog] using this
    · simp only [World.addLog, List.mem_cons, Frame.finishing.injEq] at hm
      rcases hm with ⟨rfl, -, -⟩ | hm
      · exact hS.fin u i how (by simp [hst])
      · exact hS.fin u j how' (by simp [hst, hm])
    · have := hS.nd
      rw [hst] at this
      simpa [World.addLog, Frame.tid] using this
  | cbEnd t i how rest hi hst hc =>
    have h0 : SInv { w with stack := rest } := by
      refine ⟨fun u => ?_, fun u j how' hm => hS.fin u j how' (by simp [hst]; right; exact hm), ?_⟩
      · have := hS.run u
        rw [hst] at this
        simpa using this
      · have := hS.nd
        rw [hst] at this
        simp only [List.map_cons, List.nodup_cons] at this
        exact this.2
    have hi0 : Inv D { w with stack := rest } [] := h.congr rfl rfl rfl rfl rfl
    have h1 := h0.wake (react_aux _ (.complete t)).1.stack (.react hi0 (h.gpiDead (by simp)) rfl rfl)
    have h2 := h1.wake (react_aux _ (.join t)).1.stack
      (.react (hi0.react (by simp) (g := .complete t) (h.gpiDead (by simp)))
        (h.gpiDead (by simp)) rfl rfl)
    unfold finishEnd
    cases how <;> exact ⟨h2.run, h2.fin, h2.nd⟩

theorem SInv.failStep {w w' : World} {a : Act} {r : Res} (hS : SInv w) (he : FailStep w a w' r) :
    SInv w' := by
  cases he with
  | mk t rest n hi hst hm hc =>
    refine hS.popRun hst _ rfl (fun u hu => Or.inl ?_) ?_
    · simp [failWorld, scheduleResume, upd_ne _ _ hu]
    · simp [failWorld, scheduleResume, upd_self]

theorem inv_init : Inv (fun _ => False) init [] := by
  refine ⟨fun t _ => ⟨?_, ?_, ?_, ?_⟩, ?_, ?_, ?_, ?_, ?_, fun g h => h.elim⟩ <;> simp [init]

theorem sinv_init : SInv init := by
  refine ⟨?_, ?_, ?_⟩ <;> simp [init]

end Verif.Sched
