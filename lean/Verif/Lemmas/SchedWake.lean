import Verif.Lemmas.SchedTrig

namespace Verif.Sched

variable {D : Trig → Prop}

/-- The triggers that fire when `a` is executed in `w` (not counting a trigger that fires in the
very moment somebody starts waiting for it). -/
def firesOn (w : World) : Act → List Trig
  | .fire n => [.gpi n]
  | .setE e => [.event e]
  | .release l =>
    match (w.lock l).current, (w.lock l).pending with
    | some _, n :: _ => [.lock l n]
    | _, _ => []
  | .cbStep =>
    match w.stack with
    | .finishing t i _ :: _ => if (w.task t).doneCbs[i]? = none then [.complete t, .join t] else []
    | _ => []
  | _ => []

theorem react_one (w : World) (g : Trig) (h t : Nat) (hc : w.cbs g = [(h, t)]) :
    react w g = scheduleResume { w with cbs := upd w.cbs g [] } t none := by
  simp [react, hc, wakeAll]

/-- Registering with a trigger does not touch other tasks. -/
theorem register_other (w : World) (g : Trig) (t u : Nat) (hu : u ≠ t) :
    (register w g t false).task u = w.task u := by
  unfold Sched.register
  dsimp only
  split
  · rename_i hd
    have hc : w.cbs g = [] := by simpa using hd
    generalize hw : (World.mk _ _ _ _ _ _ _ _ _ _ _ _ _ _) = w1
    have h1 : w1.cbs g = [(w.nHandle, t)] := by subst hw; simp [upd_self, hc]
    have h2 : w1.task u = w.task u := by subst hw; simp [upd_ne _ _ hu]
    have hr : ∀ v : World, v.cbs g = [(w.nHandle, t)] → v.task u = w.task u →
        (react v g).task u = w.task u := by
      intro v hv1 hv2
      rw [react_one v g _ _ hv1]
      simp [scheduleResume, upd_ne _ _ hu, hv2]
    cases g <;> simp only [prime, Bool.false_eq_true, if_false]
    case gpi => exact h2
    case lock l n =>
      simp only [primeLock]
      split
      · exact hr _ h1 h2
      · exact h2
    case null => exact hr _ h1 h2
    all_goals
      split
      · exact hr _ h1 h2
      · exact h2
  · simp [upd_ne _ _ hu]

theorem react_cause {w v : World} {g : Trig} {t : Nat} (hv : v.task = w.task) (hc : v.cbs = w.cbs) :
    (react v g).task t = w.task t ∨ t ∈ (w.cbs g).map Prod.snd := by
  by_cases ho : On v g t
  · right; unfold On at ho; rwa [hc] at ho
  · left; rw [react_task_off v g t ho, hv]

/-- A waiting task stays so unless it is cancelled or killed, or its trigger fires. -/
theorem Step.woken {w w' : World} {a : Act} {r : Res} (hg : Good D w)
    (he : Step w a w' r) {t : Nat} (hs : (w.task t).state = .pending) :
    ((w'.task t).state = .pending ∧ (w'.task t).tcb = (w.task t).tcb) ∨
    (a = .cancel t ∨ a = .kill t ∨ a = .cancelNow t) ∨
    ∃ g ∈ firesOn w a, t ∈ (w.cbs g).map Prod.snd := by
  have hsame : w'.task t = w.task t →
      ((w'.task t).state = .pending ∧ (w'.task t).tcb = (w.task t).tcb) ∨
      (a = .cancel t ∨ a = .kill t ∨ a = .cancelNow t) ∨
      ∃ g ∈ firesOn w a, t ∈ (w.cbs g).map Prod.snd := fun h => Or.inl (by rw [h]; exact ⟨hs, rfl⟩)
  have hrun : ∀ {u rest}, w.stack = .running u :: rest → t ≠ u := by
    rintro u rest hst rfl
    have := (hg.stk.run t).1 (by simp [hst])
    rw [hs] at this; cases this
  cases he with
  | enter => exact hsame rfl
  | fire n hi hp =>
    rcases react_cause (w := w) (v := ({ w with primed := upd w.primed n false, inside := true }.addLog (.fire n)))
      (g := .gpi n) (t := t) rfl rfl with h | h
    · exact hsame h
    · exact Or.inr (Or.inr ⟨_, by simp [firesOn], h⟩)
  | popCancelled => exact hsame rfl
  | popRun e rest hi hst hq hc =>
    have h1 := ((hg.inv.ok e.task (by simp)).live e (by simp [hq]) rfl hc).1
    have : t ≠ e.task := by rintro rfl; rw [hs] at h1; cases h1
    exact hsame (by simp [resume, upd_ne _ _ this])
  | exit => exact hsame rfl
  | nop => exact hsame rfl
  | startSoon u hi hu =>
    have : t ≠ u := by rintro rfl; rw [hs] at hu; cases hu
    exact hsame (by simp [scheduleResume, World.addLog, upd_ne _ _ this])
  | startNext u hi hu =>
    have : t ≠ u := by rintro rfl; rw [hs] at hu; cases hu
    exact hsame (by simp [scheduleLeft, World.addLog, upd_ne _ _ this])
  | cancelPending u w1 hi hu hd =>
    by_cases ht : t = u
    · subst ht; exact Or.inr (Or.inl (Or.inl rfl))
    · exact hsame (by simp [scheduleResume, bumpCancel, World.setTask, upd_ne _ _ ht,
        (deregister_task hd).1])
  | cancelScheduled u hi hu =>
    by_cases ht : t = u
    · subst ht; exact Or.inr (Or.inl (Or.inl rfl))
    · exact hsame (by simp [bumpCancel, World.setTask, upd_ne _ _ ht])
  | cancelUnstarted u hi hu =>
    by_cases ht : t = u
    · subst ht; exact Or.inr (Or.inl (Or.inl rfl))
    · exact hsame (by simp [scheduleResume, bumpCancel, World.addLog, World.setTask, upd_ne _ _ ht])
  | kill u w1 hi hnd hnr hd =>
    by_cases ht : t = u
    · subst ht; exact Or.inr (Or.inl (Or.inr (Or.inl rfl)))
    · exact hsame (by simp [setOutcome, upd_ne _ _ ht, (detach_task hd).1])
  | cancelNow u w1 hi hnd hnr hd =>
    by_cases ht : t = u
    · subst ht; exact Or.inr (Or.inl (Or.inr (Or.inr rfl)))
    · have d1' : w1.task = w.task := by rw [(detach_task hd).1]; split <;> rfl
      exact hsame (by simp [resume, bumpCancel, World.setTask, upd_ne _ _ ht, d1'])
  | uncancel u =>
    left
    by_cases ht : t = u
    · subst ht; simp [Sched.uncancel, World.setTask, upd_self, hs]
    · simp [Sched.uncancel, World.setTask, upd_ne _ _ ht, hs]
  | addCbDone u =>
    left
    by_cases ht : t = u
    · subst ht; simp [upd_self, hs]
    · simp [upd_ne _ _ ht, hs]
  | addCb u =>
    left
    by_cases ht : t = u
    · subst ht; simp [upd_self, hs]
    · simp [upd_ne _ _ ht, hs]
  | setE e hi =>
    rcases react_cause (w := w) (v := World.addLog { w with fired := upd w.fired e true } (.setE e))
      (g := .event e) (t := t) rfl rfl with h | h
    · exact hsame h
    · exact Or.inr (Or.inr ⟨_, by simp [firesOn], h⟩)
  | clearE => exact hsame rfl
  | release => exact hsame rfl
  | releaseGrant l m n ns hi hc hp =>
    rcases react_cause (w := w) (v := World.addLog (World.setLock (((w.setLock l
        { w.lock l with current := none }).addLog
        (.rel l)).setLock l { current := none, pending := ns }) l _) (.grant l n))
      (g := .lock l n) (t := t) rfl rfl with h | h
    · exact hsame h
    · exact Or.inr (Or.inr ⟨.lock l n, by simp [firesOn, hc, hp], h⟩)
  | await u rest g fails hi hst hr hm =>
    have ht := hrun hst
    refine hsame ?_
    dsimp only
    rw [register_other _ _ _ _ ht]
    simp [World.addLog, World.setTask, upd_ne _ _ ht]
  | yieldBad u rest hi hst hm =>
    have ht := hrun hst
    exact hsame (by simp [scheduleResume, World.addLog, upd_ne _ _ ht])
  | finish _ u rest s o how hi hst hce =>
    have ht := hrun hst
    exact hsame (by simp [setOutcome, upd_ne _ _ ht])
  | cbNext => exact hsame rfl
  | cbEnd u i how rest hi hst hc =>
    have e : (finishEnd { w with stack := rest } u how).task =
        (react (react { w with stack := rest } (.complete u)) (.join u)).task := by
      unfold finishEnd; cases how <;> rfl
    by_cases h1 : On w (.complete u) t
    · exact Or.inr (Or.inr ⟨.complete u, by simp [firesOn, hst, hc], h1⟩)
    by_cases h2 : On w (.join u) t
    · exact Or.inr (Or.inr ⟨.join u, by simp [firesOn, hst, hc], h2⟩)
    refine hsame ?_
    rw [e, react_task_off, react_task_off]
    · exact h1
    · unfold On
      rw [(react_aux _ _).2.1, upd_ne _ _ (by simp)]
      exact h2

theorem Good.woken {w w' : World} {a : Act} {r : Res} (hg : Good D w)
    (he : Step w a w' r ∨ FailStep w a w' r) {t : Nat} (hs : (w.task t).state = .pending) :
    ((w'.task t).state = .pending ∧ (w'.task t).tcb = (w.task t).tcb) ∨
    (a = .cancel t ∨ a = .kill t ∨ a = .cancelNow t) ∨
    ∃ g ∈ firesOn w a, t ∈ (w.cbs g).map Prod.snd := by
  rcases he with he | he
  · exact he.woken hg hs
  · cases he with
    | mk u rest n hi hst hm hc =>
      have ht : t ≠ u := by
        rintro rfl
        have := (hg.stk.run t).1 (by simp [hst])
        rw [hs] at this; cases this
      left
      simp [failWorld, scheduleResume, upd_ne _ _ ht, hs]

theorem wakeAll_queue (l : List (Nat × Nat)) : ∀ w : World,
    (wakeAll w l).queue.map (fun e => (e.task, e.cancelled)) =
      w.queue.map (fun e => (e.task, e.cancelled)) ++ l.map (fun p => (p.2, false)) := by
  induction l with
  | nil => intro w; simp [wakeAll]
  | cons p l ih =>
    intro w
    obtain ⟨h, t⟩ := p
    rw [wakeAll, ih]
    simp [scheduleResume]

theorem react_queue (w : World) (g : Trig) :
    (react w g).queue.map (fun e => (e.task, e.cancelled)) =
      w.queue.map (fun e => (e.task, e.cancelled)) ++ (w.cbs g).map (fun p => (p.2, false)) :=
  wakeAll_queue _ _

end Verif.Sched
