import Verif.Spec.Sched
import Verif.Lemmas.SchedTrig

namespace Verif.Sched

open SchedSpec

variable {D : Trig → Prop}

/-- The observation is a registration or call of a done callback of `t`, or the end of `t`. -/
def Obs.loud (t : Nat) : Obs → Bool
  | .regCb u _ | .doneCb u _ | .done u _ _ => u == t
  | _ => false

/-- What an action does to the done callbacks of `t`. -/
inductive DStep (t : Nat) (w w' : World) (new : List Obs) : Prop
  | quiet (hd : (w'.task t).doneCbs = (w.task t).doneCbs)
      (hs : (w'.task t).state.isDone = (w.task t).state.isDone)
      (hf : ∀ i how, .finishing t i how ∈ w'.stack ↔ .finishing t i how ∈ w.stack)
      (ho : ∀ o ∈ new, o.loud t = false) (hn : w.nCb ≤ w'.nCb)
  | add (hd : (w'.task t).doneCbs = (w.task t).doneCbs ++ [w.nCb])
      (hs : (w'.task t).state = (w.task t).state) (hst : w'.stack = w.stack)
      (ho : new = [.regCb t w.nCb] ∧ (w.task t).state.isDone = false ∨
        new = [.regCb t w.nCb, .doneCb t w.nCb] ∧ (w.task t).state.isDone = true)
      (hn : w'.nCb = w.nCb + 1)
  | ended (hd : (w'.task t).doneCbs = (w.task t).doneCbs)
      (h0 : (w.task t).state.isDone = false) (h1 : (w'.task t).state.isDone = true)
      (hf : ∀ i how, .finishing t i how ∈ w'.stack → i = 0)
      (hf' : ∃ how, .finishing t 0 how ∈ w'.stack)
      (ho : ∃ pre s o, new = pre ++ [.done t s o] ∧ ∀ o ∈ pre, o.loud t = false)
      (hn : w.nCb ≤ w'.nCb)
  | next (c i : Nat) (hd : (w'.task t) = (w.task t)) (h1 : (w.task t).state.isDone = true)
      (hc : (w.task t).doneCbs[i]? = some c) (hin : ∃ how, .finishing t i how ∈ w.stack)
      (hf : ∀ j how, .finishing t j how ∈ w'.stack → j = i + 1)
      (hf' : ∃ how, .finishing t (i + 1) how ∈ w'.stack)
      (ho : new = [.doneCb t c]) (hn : w.nCb ≤ w'.nCb)
  | last (i : Nat) (hd : (w'.task t).doneCbs = (w.task t).doneCbs)
      (h1 : (w.task t).state.isDone = true) (h2 : (w'.task t).state.isDone = true)
      (hc : (w.task t).doneCbs[i]? = none) (hin : ∃ how, .finishing t i how ∈ w.stack)
      (hf : ∀ j how, .finishing t j how ∉ w'.stack)
      (ho : new = []) (hn : w.nCb ≤ w'.nCb)

theorem loud_filter {t : Nat} {l : List Obs} (h : ∀ o ∈ l.filter (·.about t), o.loud t = false) :
    ∀ o ∈ l, o.loud t = false := by
  intro o ho
  cases hl : o.loud t
  · rfl
  · have ha : o.about t = true := by cases o <;> simp_all [Obs.loud, Obs.about]
    have := h o (List.mem_filter.2 ⟨ho, ha⟩)
    rw [hl] at this; exact this

/-- Actions other than adding a callback, ending the task or running its callbacks. -/
theorem TStep.quietOf {a t r r' obs} (h : TStep a t r r' obs) (h1 : a ≠ .addCb t)
    (h2 : a ≠ .kill t) (h3 : a ≠ .cbStep) (h4 : r.state = .running → coroEnd r.mustCancel a = none) :
    r'.doneCbs = r.doneCbs ∧ r'.state.isDone = r.state.isDone ∧ ∀ o ∈ obs, o.loud t = false := by
  cases h
  case addCb ha _ => exact absurd ha h1
  case addCbDone ha _ => exact absurd ha h1
  case kill ha _ _ => exact absurd ha h2
  case cb ha _ => exact absurd ha h3
  case finish hs he => rw [h4 hs] at he; cases he
  case cancelNow hnd hnr =>
    refine ⟨rfl, by rw [hnd]; rfl, ?_⟩
    intro o ho
    split at ho <;> simp at ho
    · rcases ho with rfl | rfl <;> rfl
    · subst ho; rfl
  all_goals
    refine ⟨rfl, ?_, ?_⟩
    · simp_all [TState.isDone]
    · simp [Obs.loud]

theorem Step.dstep {w w' : World} {a : Act} {r : Res} (hg : Good D w) (he : Step w a w' r)
    {new : List Obs} (hlog : w'.log = w.log ++ new)
    (hT : ∀ t, TStep a t (w.task t) (w'.task t) (new.filter (·.about t))) (t : Nat) :
    DStep t w w' new := by
  have hS := hg.stk
  have hq : a ≠ .addCb t → a ≠ .kill t → a ≠ .cbStep →
      ((w.task t).state = .running → coroEnd (w.task t).mustCancel a = none) →
      (∀ i how, .finishing t i how ∈ w'.stack ↔ .finishing t i how ∈ w.stack) → w.nCb ≤ w'.nCb →
      DStep t w w' new := by
    intro h1 h2 h3 h4 h5 h6
    obtain ⟨q1, q2, q3⟩ := (hT t).quietOf h1 h2 h3 h4
    exact .quiet q1 q2 h5 (loud_filter q3) h6
  have huniq : ∀ {i how rest j how'}, w.stack = .finishing t i how :: rest →
      .finishing t j how' ∈ rest → False := by
    intro i how rest j how' hst hm
    have := hS.nd
    rw [hst] at this
    simp only [List.map_cons, List.nodup_cons] at this
    exact this.1 (List.mem_map.2 ⟨_, hm, rfl⟩)
  cases he with
  | enter => exact hq (by simp) (by simp) (by simp) (by simp [coroEnd]) (by simp) (Nat.le_refl _)
  | fire n hi hp =>
    have hx := (react_aux ({ w with primed := upd w.primed n false, inside := true }.addLog (.fire n)) (.gpi n)).1
    exact hq (by simp) (by simp) (by simp) (by simp [coroEnd]) (by rw [hx.stack]; simp [World.addLog])
      (by rw [hx.nCb]; exact Nat.le_refl _)
  | popCancelled e rest hi hst hqe hc =>
    exact hq (by simp) (by simp) (by simp) (by simp [coroEnd]) (by simp) (Nat.le_refl _)
  | popRun e rest hi hst hqe hc =>
    exact hq (by simp) (by simp) (by simp) (by simp [coroEnd]) (by simp [resume]) (Nat.le_refl _)
  | exit => exact hq (by simp) (by simp) (by simp) (by simp [coroEnd]) (by simp) (Nat.le_refl _)
  | nop =>
    have : new = [] := by simpa using hlog
    subst this
    exact .quiet rfl rfl (by simp) (by simp) (Nat.le_refl _)
  | startSoon u hi hs =>
    exact hq (by simp) (by simp) (by simp) (by simp [coroEnd])
      (by simp [scheduleResume, World.addLog]) (Nat.le_refl _)
  | startNext u hi hs =>
    exact hq (by simp) (by simp) (by simp) (by simp [coroEnd])
      (by simp [scheduleLeft, World.addLog]) (Nat.le_refl _)
  | cancelPending u w1 hi hs hd =>
    obtain ⟨d1, d2, d3, d4, d5, d6, -⟩ := deregister_task hd
    refine hq (by simp) (by simp) (by simp) (by simp [coroEnd]) ?_ ?_
    · simp [scheduleResume, bumpCancel, World.setTask, d2]
    · simp [scheduleResume, bumpCancel, World.setTask, d6]
  | cancelScheduled u hi hs =>
    exact hq (by simp) (by simp) (by simp) (by simp [coroEnd])
      (by simp [bumpCancel, World.setTask]) (Nat.le_refl _)
  | cancelUnstarted u hi hs =>
    exact hq (by simp) (by simp) (by simp) (by simp [coroEnd])
      (by simp [scheduleResume, bumpCancel, World.addLog, World.setTask]) (Nat.le_refl _)
  | kill u w1 hi hnd hnr hd =>
    obtain ⟨d1, d2, d4, d5, d6, d7, d8, new', d9, d10⟩ := detach_task hd
    by_cases ht : t = u
    · subst ht
      have hl : new = new' ++ [.done t .finished .noneKilled] := by
        have : w.log ++ new = w.log ++ (new' ++ [.done t .finished .noneKilled]) := by
          rw [← hlog]; simp [setOutcome, d9]
        exact List.append_cancel_left this
      have hn : ∀ i how, .finishing t i how ∉ w.stack := by
        intro i how hm
        have := hS.fin t i how hm
        rw [hnd] at this; cases this
      refine .ended (by simp [setOutcome, upd_self, d1]) hnd
        (by simp [setOutcome, upd_self, TState.isDone]) ?_ ⟨.kill, by simp [setOutcome]⟩
        ⟨new', _, _, hl, ?_⟩ ?_
      · intro i how hm
        simp only [setOutcome, List.mem_cons, d2, Frame.finishing.injEq] at hm
        rcases hm with ⟨-, rfl, -⟩ | hm
        · rfl
        · exact absurd hm (hn i how)
      · exact loud_filter (by rw [lockish_about d10]; simp)
      · simp [setOutcome, d6]
    · exact hq (by simp) (by simpa using fun h => ht h.symm) (by simp) (by simp [coroEnd])
        (by simp [setOutcome, d2, ht]) (by simp [setOutcome, d6])
  | cancelNow u w1 hi hnd hnr hd =>
    obtain ⟨d1, d2, d4, d5, d6, d7, d8, new', d9, d10⟩ := detach_task hd
    have d2' : w1.stack = w.stack := by rw [d2]; split <;> rfl
    have d8' : w1.nCb = w.nCb := by rw [d6]; split <;> rfl
    exact hq (by simp) (by simp) (by simp) (by simp [coroEnd])
      (by simp [resume, bumpCancel, World.setTask, d2'])
      (by simp [resume, bumpCancel, World.setTask, d8'])
  | uncancel u hi =>
    exact hq (by simp) (by simp) (by simp) (by simp [coroEnd])
      (by simp [Sched.uncancel, World.setTask]) (Nat.le_refl _)
  | addCbDone u hi hs =>
    have hl : new = [.regCb u w.nCb, .doneCb u w.nCb] := List.append_cancel_left hlog.symm
    by_cases ht : t = u
    · subst ht
      exact .add (by simp [upd_self]) (by simp [upd_self]) rfl (Or.inr ⟨hl, hs⟩) rfl
    · exact hq (by simpa using fun h => ht h.symm) (by simp) (by simp) (by simp [coroEnd]) (by simp)
        (Nat.le_succ _)
  | addCb u hi hs =>
    have hl : new = [.regCb u w.nCb] := List.append_cancel_left hlog.symm
    by_cases ht : t = u
    · subst ht
      exact .add (by simp [upd_self]) (by simp [upd_self]) rfl (Or.inl ⟨hl, hs⟩) rfl
    · exact hq (by simpa using fun h => ht h.symm) (by simp) (by simp) (by simp [coroEnd]) (by simp)
        (Nat.le_succ _)
  | setE e hi =>
    have hx := (react_aux (World.addLog { w with fired := upd w.fired e true } (.setE e)) (.event e)).1
    exact hq (by simp) (by simp) (by simp) (by simp [coroEnd])
      (by unfold setEvent; rw [hx.stack]; simp [World.addLog])
      (by unfold setEvent; rw [hx.nCb]; exact Nat.le_refl _)
  | clearE e hi =>
    exact hq (by simp) (by simp) (by simp) (by simp [coroEnd]) (by simp [clearEvent, World.addLog])
      (Nat.le_refl _)
  | release l =>
    exact hq (by simp) (by simp) (by simp) (by simp [coroEnd])
      (by simp [World.setLock, World.addLog]) (Nat.le_refl _)
  | releaseGrant l m n ns hi hc hp =>
    refine hq (by simp) (by simp) (by simp) (by simp [coroEnd]) ?_ ?_
    · unfold acquireAndFire; rw [(react_aux _ _).1.stack]; simp [World.setLock, World.addLog]
    · unfold acquireAndFire; rw [(react_aux _ _).1.nCb]; exact Nat.le_refl _
  | await u rest g fails hi hst hr hm =>
    have hs := (hS.run u).1 (by simp [hst])
    have hX : Inv D { w with stack := rest } [u] :=
      (hg.inv.addX (t := u) (by rw [hs]; exact not_waiting_running)).congr rfl rfl rfl rfl rfl
    obtain ⟨⟨new', e1, e2⟩, e0, -, -, e5, -, e3, hh, e4⟩ := register_task (t := u) (g := g)
      (w := (World.setTask { w with stack := rest } u
          { w.task u with state := .pending }).addLog (.suspend u g))
      (Inv.log (hX.setTaskX (by simp)) _)
      (by simp [World.addLog, World.setTask, upd_self])
    have hl : new = [.suspend u g] ++ new' := by
      dsimp only at hlog
      rw [e1] at hlog
      simp only [World.addLog, World.setTask, List.append_assoc] at hlog
      exact List.append_cancel_left hlog.symm
    have hstk : ∀ i how, .finishing t i how ∈ rest ↔ .finishing t i how ∈ w.stack := by
      intro i how; rw [hst]; simp
    by_cases ht : t = u
    · subst ht
      refine hq (by simp) (by simp) (by simp) (by simp [coroEnd, hm]) ?_ ?_
      · dsimp only; rw [e0]; exact hstk
      · dsimp only; rw [e5]; exact Nat.le_refl _
    · refine .quiet ?_ ?_ ?_ ?_ ?_
      · dsimp only
        rcases e3 t ht with e | ⟨-, k, e⟩ <;> rw [e] <;>
          simp [World.addLog, World.setTask, upd_ne _ _ ht]
      · dsimp only
        rcases e3 t ht with e | ⟨e', k, e⟩
        · rw [e]; simp [World.addLog, World.setTask, upd_ne _ _ ht]
        · rw [e]; simp only [World.addLog, World.setTask, upd_ne _ _ ht] at e' ⊢; rw [e']; rfl
      · dsimp only; rw [e0]; exact hstk
      · rw [hl]
        refine loud_filter ?_
        rw [List.filter_append, lockish_about e2]
        simp [Obs.about]
        exact fun h => absurd h.symm ht
      · dsimp only; rw [e5]; exact Nat.le_refl _
  | yieldBad u rest hi hst hm =>
    have hl : new = [.suspendBad u] := List.append_cancel_left hlog.symm
    have hs := (hS.run u).1 (by simp [hst])
    refine .quiet ?_ ?_ ?_ ?_ (Nat.le_refl _)
    · by_cases ht : t = u
      · subst ht; simp [scheduleResume, World.addLog, upd_self]
      · simp [scheduleResume, World.addLog, upd_ne _ _ ht]
    · by_cases ht : t = u
      · subst ht; simp [scheduleResume, World.addLog, upd_self, hs, TState.isDone]
      · simp [scheduleResume, World.addLog, upd_ne _ _ ht]
    · rw [hst]; simp [scheduleResume, World.addLog]
    · rw [hl]; simp [Obs.loud]
  | finish _ u rest s o how hi hst hce =>
    have hs := (hS.run u).1 (by simp [hst])
    have hl : new = [.done u s o] := List.append_cancel_left hlog.symm
    have hnd := hS.nd
    rw [hst] at hnd
    simp only [List.map_cons, List.nodup_cons] at hnd
    by_cases ht : t = u
    · subst ht
      refine .ended (by simp [setOutcome, upd_self]) (by rw [hs]; rfl)
        (by simp [setOutcome, upd_self, coroEnd_done hce]) ?_ ⟨how, by simp [setOutcome]⟩
        ⟨[], s, o, hl, by simp⟩ (Nat.le_refl _)
      intro i how' hm
      simp only [setOutcome, List.mem_cons, Frame.finishing.injEq] at hm
      rcases hm with ⟨-, rfl, -⟩ | hm
      · rfl
      · exact absurd (List.mem_map.2 ⟨_, hm, rfl⟩) hnd.1
    · refine .quiet (by simp [setOutcome, upd_ne _ _ ht]) (by simp [setOutcome, upd_ne _ _ ht]) ?_ ?_
        (Nat.le_refl _)
      · rw [hst]; simp [setOutcome, ht]
      · rw [hl]; simp [Obs.loud]; exact fun h => ht h.symm
  | cbNext u i how rest c hi hst hc =>
    have hl : new = [.doneCb u c] := List.append_cancel_left hlog.symm
    by_cases ht : t = u
    · subst ht
      refine .next c i rfl (hS.fin t i how (by simp [hst])) hc ⟨how, by simp [hst]⟩ ?_
        ⟨how, by simp [World.addLog]⟩ hl (Nat.le_refl _)
      intro j how' hm
      simp only [World.addLog, List.mem_cons, Frame.finishing.injEq] at hm
      rcases hm with ⟨-, rfl, -⟩ | hm
      · rfl
      · exact (huniq hst hm).elim
    · refine .quiet rfl rfl ?_ ?_ (Nat.le_refl _)
      · rw [hst]; simp [World.addLog, ht]
      · rw [hl]; simp [Obs.loud]; exact fun h => ht h.symm
  | cbEnd u i how rest hi hst hc =>
    have hx1 := (react_aux { w with stack := rest } (.complete u)).1
    have hx2 := (react_aux (react { w with stack := rest } (.complete u)) (.join u)).1
    have hl0 : (finishEnd { w with stack := rest } u how).log = w.log := by
      unfold finishEnd; cases how <;> simp [hx2.log, hx1.log]
    have hst0 : (finishEnd { w with stack := rest } u how).stack = rest := by
      unfold finishEnd; cases how <;> simp [hx2.stack, hx1.stack]
    have hn0 : (finishEnd { w with stack := rest } u how).nCb = w.nCb := by
      unfold finishEnd; cases how <;> simp [hx2.nCb, hx1.nCb]
    have hl : new = [] := by rw [hl0] at hlog; simpa using hlog
    have hT' := hT t
    subst hl
    simp only [List.filter_nil] at hT'
    have hq2 : ((finishEnd { w with stack := rest } u how).task t).doneCbs = (w.task t).doneCbs ∧
        ((finishEnd { w with stack := rest } u how).task t).state.isDone =
          (w.task t).state.isDone := by
      generalize ((finishEnd { w with stack := rest } u how).task t) = r' at hT'
      generalize w.task t = r at hT'
      generalize hA : Act.cbStep = a at hT'
      generalize ho : ([] : List Obs) = obs at hT'
      cases hT'
      case same => exact ⟨rfl, rfl⟩
      case wake hs => exact ⟨rfl, by rw [hs]; rfl⟩
      case cancelP ha _ => subst hA; cases ha
      case cancelS ha _ => subst hA; cases ha
      case uncancel ha => subst hA; cases ha
      all_goals simp at ho
    by_cases ht : t = u
    · subst ht
      have hd := hS.fin t i how (by simp [hst])
      refine .last i hq2.1 hd (by rw [hq2.2]; exact hd) hc ⟨how, by simp [hst]⟩ ?_ rfl
        (by rw [hn0]; exact Nat.le_refl _)
      intro j how' hm
      rw [hst0] at hm
      exact huniq hst hm
    · refine .quiet hq2.1 hq2.2 ?_ (by simp) (by rw [hn0]; exact Nat.le_refl _)
      rw [hst0, hst]; simp [ht]

theorem FailStep.dstep {w w' : World} {a : Act} {r : Res} (hg : Good D w) (he : FailStep w a w' r)
    {new : List Obs} (hlog : w'.log = w.log ++ new) (t : Nat) : DStep t w w' new := by
  cases he with
  | mk u rest n hi hst hm hc =>
    have hl : new = [.suspend u (.gpi n)] := List.append_cancel_left hlog.symm
    have hs := (hg.stk.run u).1 (by simp [hst])
    refine .quiet ?_ ?_ ?_ ?_ (Nat.le_refl _)
    · by_cases ht : t = u
      · subst ht; simp [failWorld, scheduleResume, upd_self]
      · simp [failWorld, scheduleResume, upd_ne _ _ ht]
    · by_cases ht : t = u
      · subst ht; simp [failWorld, scheduleResume, upd_self, hs, TState.isDone]
      · simp [failWorld, scheduleResume, upd_ne _ _ ht]
    · rw [hst]; simp [failWorld, scheduleResume]
    · rw [hl]; simp [Obs.loud]

theorem registered_append (t : Nat) (l l' : List Obs) :
    registered t (l ++ l') = registered t l ++ registered t l' := by simp [registered]

theorem called_append (t : Nat) (l l' : List Obs) :
    called t (l ++ l') = called t l ++ called t l' := by simp [called]

theorem quiet_obs {t : Nat} {l : List Obs} (h : ∀ o ∈ l, o.loud t = false) :
    registered t l = [] ∧ called t l = [] ∧ l.any (isDoneObs t) = false := by
  induction l with
  | nil => simp [registered, called]
  | cons o l ih =>
    obtain ⟨h1, h2, h3⟩ := ih (fun o ho => h o (by simp [ho]))
    have ho := h o (by simp)
    unfold registered called at *
    cases o <;> simp_all [Obs.loud, isDoneObs]

theorem takeWhile_append_done {t : Nat} {l l' : List Obs} (h : l.any (isDoneObs t) = true) :
    (l ++ l').takeWhile (fun o => !isDoneObs t o) = l.takeWhile (fun o => !isDoneObs t o) := by
  induction l with
  | nil => simp at h
  | cons o l ih =>
    cases ho : isDoneObs t o
    · simp only [List.any_cons, ho, Bool.false_or] at h
      simp [ho, ih h]
    · simp [ho]

theorem takeWhile_not_done {t : Nat} {l : List Obs} (h : l.any (isDoneObs t) = false) :
    l.takeWhile (fun o => !isDoneObs t o) = l := by
  induction l with
  | nil => rfl
  | cons o l ih =>
    simp only [List.any_cons, Bool.or_eq_false_iff] at h
    simp [h.1, ih h.2]

/-- The callbacks registered before the end that have been called so far. -/
def calledOld (t : Nat) (log : List Obs) : List Nat :=
  (called t log).filter (· ∈ registeredBefore t log)

structure DoneInv (t : Nat) (w : World) : Prop where
  cbs : (w.task t).doneCbs = registered t w.log
  lt : ∀ c ∈ registered t w.log, c < w.nCb
  nd : (registered t w.log).Nodup
  any : w.log.any (isDoneObs t) = (w.task t).state.isDone
  notCalled : (w.task t).state.isDone = false → called t w.log = []
  pre : registeredBefore t w.log <+: registered t w.log
  fin : ∀ i how, .finishing t i how ∈ w.stack →
    calledOld t w.log = (registeredBefore t w.log).take i
  over : (w.task t).state.isDone = true → (∀ i how, .finishing t i how ∉ w.stack) →
    calledOld t w.log = registeredBefore t w.log

theorem before_not_done {t : Nat} {l : List Obs} (h : l.any (isDoneObs t) = false) :
    registeredBefore t l = registered t l := by
  rw [registeredBefore, takeWhile_not_done h]

theorem before_done {t : Nat} {l l' : List Obs} (h : l.any (isDoneObs t) = true) :
    registeredBefore t (l ++ l') = registeredBefore t l := by
  rw [registeredBefore, takeWhile_append_done h, registeredBefore]

theorem before_quiet {t : Nat} {l l' : List Obs} (h : ∀ o ∈ l', o.loud t = false) :
    registeredBefore t (l ++ l') = registeredBefore t l := by
  cases hd : l.any (isDoneObs t)
  · obtain ⟨h1, h2, h3⟩ := quiet_obs h
    rw [before_not_done hd, before_not_done (by simp [List.any_append, hd, h3]),
      registered_append, h1, List.append_nil]
  · exact before_done hd

theorem DoneInv.step {t : Nat} {w w' : World} {new : List Obs} (h : DoneInv t w)
    (hfin : ∀ i how, .finishing t i how ∈ w.stack → (w.task t).state.isDone = true)
    (hlog : w'.log = w.log ++ new) (hs : DStep t w w' new) : DoneInv t w' := by
  cases hs with
  | quiet hd hs hf ho hn =>
    obtain ⟨q1, q2, q3⟩ := quiet_obs ho
    have e1 : registered t w'.log = registered t w.log := by
      rw [hlog, registered_append, q1, List.append_nil]
    have e2 : called t w'.log = called t w.log := by
      rw [hlog, called_append, q2, List.append_nil]
    have e3 : registeredBefore t w'.log = registeredBefore t w.log := by
      rw [hlog, before_quiet ho]
    have e4 : calledOld t w'.log = calledOld t w.log := by simp only [calledOld, e2, e3]
    refine ⟨by rw [hd, e1, h.cbs], ?_, by rw [e1]; exact h.nd, ?_, ?_, by rw [e1, e3]; exact h.pre,
      ?_, ?_⟩
    · rw [e1]; exact fun c hc => Nat.lt_of_lt_of_le (h.lt c hc) hn
    · rw [hlog, List.any_append, q3, Bool.or_false, h.any, hs]
    · rw [hs, e2]; exact h.notCalled
    · intro i how hm
      rw [e4, e3]; exact h.fin i how ((hf i how).1 hm)
    · intro h1 h2
      rw [e4, e3]
      exact h.over (by rw [← hs]; exact h1) fun i how hm => h2 i how ((hf i how).2 hm)
  | add hd hs hst ho hn =>
    have hr : registered t new = [w.nCb] := by
      rcases ho with ⟨rfl, -⟩ | ⟨rfl, -⟩ <;> simp [registered]
    have ha : new.any (isDoneObs t) = false := by
      rcases ho with ⟨rfl, -⟩ | ⟨rfl, -⟩ <;> simp [isDoneObs]
    have e1 : registered t w'.log = registered t w.log ++ [w.nCb] := by
      rw [hlog, registered_append, hr]
    have hfresh : w.nCb ∉ registered t w.log := fun hc => Nat.lt_irrefl _ (h.lt _ hc)
    have hany : w'.log.any (isDoneObs t) = (w'.task t).state.isDone := by
      rw [hlog, List.any_append, ha, Bool.or_false, h.any, hs]
    have hnd : (registered t w'.log).Nodup := by
      rw [e1, List.nodup_append]
      exact ⟨h.nd, by simp, fun a ha b hb => by simp at hb; subst hb; exact fun h => hfresh (h ▸ ha)⟩
    have hlt : ∀ c ∈ registered t w'.log, c < w'.nCb := by
      intro c hc
      rw [e1, List.mem_append] at hc
      rcases hc with hc | hc
      · have := h.lt c hc; omega
      · simp at hc; omega
    have hcb : (w'.task t).doneCbs = registered t w'.log := by rw [hd, e1, h.cbs]
    rcases ho with ⟨rfl, hnd'⟩ | ⟨rfl, hdd⟩
    · have hany' : w'.log.any (isDoneObs t) = false := by rw [hany, hs, hnd']
      refine ⟨hcb, hlt, hnd, hany, ?_, ?_, ?_, ?_⟩
      · intro _; rw [hlog, called_append, h.notCalled hnd']; simp [called]
      · rw [before_not_done hany']; exact List.prefix_refl _
      · intro i how hm
        rw [hst] at hm
        have := hfin i how hm
        rw [hnd'] at this; cases this
      · intro h1; rw [hs, hnd'] at h1; cases h1
    · have hany' : w.log.any (isDoneObs t) = true := by rw [h.any, hdd]
      have e3 : registeredBefore t w'.log = registeredBefore t w.log := by
        rw [hlog]; exact before_done hany'
      have hnb : w.nCb ∉ registeredBefore t w.log := fun hc => hfresh (h.pre.subset hc)
      have e4 : calledOld t w'.log = calledOld t w.log := by
        simp only [calledOld, e3]
        rw [hlog, called_append, List.filter_append]
        simp [called, hnb]
      refine ⟨hcb, hlt, hnd, hany, ?_, ?_, ?_, ?_⟩
      · intro h1; rw [hs, hdd] at h1; cases h1
      · rw [e3, e1]; exact h.pre.trans (List.prefix_append _ _)
      · intro i how hm
        rw [hst] at hm
        rw [e4, e3]; exact h.fin i how hm
      · intro h1 h2
        rw [hst] at h2
        rw [e4, e3]; exact h.over hdd h2
  | ended hd h0 h1 hf hf' ho hn =>
    obtain ⟨pre, s, o, rfl, hq⟩ := ho
    obtain ⟨q1, q2, q3⟩ := quiet_obs hq
    have e1 : registered t w'.log = registered t w.log := by
      rw [hlog, registered_append, registered_append, q1]; simp [registered]
    have e2 : called t w'.log = [] := by
      rw [hlog, called_append, called_append, q2, h.notCalled h0]; simp [called]
    have hany : w.log.any (isDoneObs t) = false := by rw [h.any, h0]
    have e3 : registeredBefore t w'.log = registered t w.log := by
      rw [hlog, ← List.append_assoc]
      unfold registeredBefore
      have : ((w.log ++ pre) ++ [Obs.done t s o]).takeWhile (fun o => !isDoneObs t o) =
          w.log ++ pre := by
        rw [List.takeWhile_append_of_pos]
        · simp [isDoneObs]
        · intro a ha
          have : (w.log ++ pre).any (isDoneObs t) = false := by simp [List.any_append, hany, q3]
          rw [List.any_eq_false] at this
          simpa using this a ha
      rw [this, registered_append, q1, List.append_nil]
    refine ⟨by rw [hd, e1, h.cbs], ?_, by rw [e1]; exact h.nd, ?_, ?_, ?_, ?_, ?_⟩
    · rw [e1]; exact fun c hc => Nat.lt_of_lt_of_le (h.lt c hc) hn
    · rw [hlog, h1]; simp [List.any_append, isDoneObs]
    · intro _; exact e2
    · rw [e3, e1]; exact List.prefix_refl _
    · intro i how hm
      rw [hf i how hm]
      simp [calledOld, e2]
    · intro _ h2
      obtain ⟨how, hm⟩ := hf'
      exact absurd hm (h2 0 how)
  | next c i hd h1 hc hin hf hf' ho hn =>
    subst ho
    have hany : w.log.any (isDoneObs t) = true := by rw [h.any, h1]
    have e1 : registered t w'.log = registered t w.log := by
      rw [hlog, registered_append]; simp [registered]
    have e3 : registeredBefore t w'.log = registeredBefore t w.log := by
      rw [hlog]; exact before_done hany
    obtain ⟨how, hin⟩ := hin
    have hprev := h.fin i how hin
    have e4 : calledOld t w'.log = (registeredBefore t w.log).take (i + 1) := by
      have : calledOld t w'.log = calledOld t w.log ++
          (if c ∈ registeredBefore t w.log then [c] else []) := by
        simp only [calledOld, e3]
        rw [hlog, called_append, List.filter_append]
        congr 1
        simp [called, List.filter_cons]
      rw [this, hprev]
      obtain ⟨suf, hsuf⟩ := h.pre
      rw [h.cbs, ← hsuf] at hc
      by_cases hi : i < (registeredBefore t w.log).length
      · rw [List.getElem?_append_left hi] at hc
        rw [if_pos (List.mem_of_getElem? hc), List.take_add_one, hc]
        simp
      · rw [List.getElem?_append_right (by omega)] at hc
        have hcs : c ∈ suf := List.mem_of_getElem? hc
        have hnd := h.nd
        rw [← hsuf, List.nodup_append] at hnd
        rw [if_neg (fun hb => hnd.2.2 c hb c hcs rfl), List.append_nil,
          List.take_of_length_le (by omega), List.take_of_length_le (by omega)]
    refine ⟨by rw [hd, e1, h.cbs], ?_, by rw [e1]; exact h.nd, ?_, ?_, by rw [e1, e3]; exact h.pre,
      ?_, ?_⟩
    · rw [e1]; exact fun c hc => Nat.lt_of_lt_of_le (h.lt c hc) hn
    · rw [hlog, hd, h1]; simp [List.any_append, hany]
    · rw [hd, h1]; intro h; cases h
    · intro j how' hm
      rw [hf j how' hm, e3]; exact e4
    · intro _ h2
      obtain ⟨how', hm⟩ := hf'
      exact absurd hm (h2 _ how')
  | last i hd h1 h2 hc hin hf ho hn =>
    subst ho
    rw [List.append_nil] at hlog
    obtain ⟨how, hin⟩ := hin
    refine ⟨by rw [hd, hlog, h.cbs], ?_, by rw [hlog]; exact h.nd, by rw [hlog, h.any, h1, h2], ?_,
      by rw [hlog]; exact h.pre, ?_, ?_⟩
    · rw [hlog]; exact fun c hc => Nat.lt_of_lt_of_le (h.lt c hc) hn
    · rw [h2]; intro h; cases h
    · intro j how' hm; exact absurd hm (hf j how')
    · intro _ _
      rw [hlog, h.fin i how hin]
      refine List.take_of_length_le ?_
      have := h.pre.length_le
      rw [h.cbs] at hc
      have := List.getElem?_eq_none_iff.1 hc
      omega

theorem doneInv {w : World} (h : Reach w) (t : Nat) : DoneInv t w := by
  refine h.induct (P := DoneInv t) ?_ ?_
  · refine ⟨?_, ?_, ?_, ?_, ?_, ?_, ?_, ?_⟩ <;>
      simp [init, registered, called, registeredBefore, TState.isDone]
  · intro D w w' a r hg hp _ he
    obtain ⟨new, hlog, hT⟩ := hg.tstep he
    refine hp.step (hg.stk.fin t) hlog ?_
    rcases he with he | he
    · exact he.dstep hg hlog hT t
    · exact he.dstep hg hlog t

end Verif.Sched
