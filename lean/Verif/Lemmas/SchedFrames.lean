import Verif.Lemmas.SchedTrig
import Verif.Props.SchedCurrent

/-! What one action does to the stack of executing code and to the order in which tasks end. -/

namespace Verif.Sched

variable {D : Trig → Prop}

/-- The tasks that ended, in the order in which they did. -/
def ends (log : List Obs) : List Nat :=
  log.filterMap fun | .done t _ _ => some t | _ => none

theorem ends_append (l l' : List Obs) : ends (l ++ l') = ends l ++ ends l' := by
  simp [ends]

theorem ends_lockish {l : List Obs} (h : ∀ o ∈ l, o.lockish = true) : ends l = [] := by
  unfold ends
  rw [List.filterMap_eq_nil_iff]
  intro o ho
  have := h o ho
  cases o <;> simp_all [Obs.lockish]

def Obs.isEnd : Obs → Bool
  | .done _ _ _ => true
  | _ => false

theorem ends_nil {l : List Obs} (h : ∀ t, ∀ o ∈ l.filter (·.about t), o.isEnd = false) :
    ends l = [] := by
  unfold ends
  rw [List.filterMap_eq_nil_iff]
  intro o ho
  cases o <;> try rfl
  rename_i t s o
  have := h t _ (List.mem_filter.2 ⟨ho, by simp [Obs.about]⟩)
  cases this

/-- Nobody ends in this step. -/
def NoEnd (w w' : World) : Prop :=
  (∀ u, (w'.task u).state.isDone = (w.task u).state.isDone) ∧ ends w'.log = ends w.log

/-- Exactly `t` ends in this step. -/
def EndsOne (t : Nat) (w w' : World) : Prop :=
  (∀ u, u ≠ t → (w'.task u).state.isDone = (w.task u).state.isDone) ∧
  (w.task t).state.isDone = false ∧ (w'.task t).state.isDone = true ∧
  ends w'.log = ends w.log ++ [t]

inductive StackStep (a : Act) (w w' : World) : Prop
  | same (h : w'.stack = w.stack) (hd : NoEnd w w')
  | popped (t : Nat) (ha : a = .pop) (h0 : w.stack = []) (h : w'.stack = [.running t])
      (hd : NoEnd w w')
  | killed (t : Nat) (ha : a = .kill t) (h : w'.stack = .finishing t 0 .kill :: w.stack)
      (hd : EndsOne t w w')
  | entered (t : Nat) (ha : a = .cancelNow t) (h : w'.stack = .running t :: w.stack)
      (hd : NoEnd w w')
  | suspended (t : Nat) (rest : List Frame) (ha : (∃ g f, a = .await g f) ∨ a = .yieldBad)
      (h0 : w.stack = .running t :: rest) (h : w'.stack = rest) (hd : NoEnd w w')
  | ended (t : Nat) (rest : List Frame) (how : How) (hk : how ≠ .kill)
      (ha : (∃ g f, a = .await g f) ∨ a = .yieldBad ∨ (∃ v, a = .ret v) ∨ ∃ e, a = .raise e)
      (h0 : w.stack = .running t :: rest) (h : w'.stack = .finishing t 0 how :: rest)
      (hd : EndsOne t w w')
  | next (t i : Nat) (how : How) (rest : List Frame) (c : Nat) (ha : a = .cbStep)
      (h0 : w.stack = .finishing t i how :: rest) (hc : (w.task t).doneCbs[i]? = some c)
      (h : w'.stack = .finishing t (i + 1) how :: rest) (hd : NoEnd w w')
  | last (t i : Nat) (how : How) (rest : List Frame) (ha : a = .cbStep)
      (h0 : w.stack = .finishing t i how :: rest) (hc : (w.task t).doneCbs[i]? = none)
      (h : w'.stack = rest) (hd : NoEnd w w')

theorem TStep.noEnd {a t r r' obs} (h : TStep a t r r' obs) (h2 : a ≠ .kill t)
    (h4 : r.state = .running → coroEnd r.mustCancel a = none) :
    r'.state.isDone = r.state.isDone ∧ ∀ o ∈ obs, o.isEnd = false := by
  cases h
  case kill ha _ _ => exact absurd ha h2
  case finish hs he => rw [h4 hs] at he; cases he
  case cancelNow hnd hnr =>
    refine ⟨by rw [hnd]; rfl, ?_⟩
    intro o ho
    split at ho <;> simp at ho
    · rcases ho with rfl | rfl <;> rfl
    · subst ho; rfl
  all_goals
    refine ⟨?_, ?_⟩
    · simp_all [TState.isDone]
    · simp [Obs.isEnd]

theorem coroEnd_act {m a x} (h : coroEnd m a = some x) :
    (∃ g f, a = .await g f) ∨ a = .yieldBad ∨ (∃ v, a = .ret v) ∨ ∃ e, a = .raise e := by
  unfold coroEnd at h
  cases a <;> simp at h ⊢

theorem Good.frames {w w' : World} {a : Act} {r : Res} (hg : Good D w)
    (he : Step w a w' r ∨ FailStep w a w' r) : StackStep a w w' := by
  obtain ⟨new, hlog, hT⟩ := hg.tstep he
  have hno : (∀ t, a ≠ .kill t) →
      (∀ t, (w.task t).state = .running → coroEnd (w.task t).mustCancel a = none) →
      NoEnd w w' := by
    intro h1 h2
    refine ⟨fun u => ((hT u).noEnd (h1 u) (h2 u)).1, ?_⟩
    rw [hlog, ends_append, ends_nil fun t => ((hT t).noEnd (h1 t) (h2 t)).2, List.append_nil]
  rcases he with he | he
  case inr =>
    cases he with
    | mk u rest n hi hst hm hc =>
      have hs := (hg.stk.run u).1 (by simp [hst])
      refine .suspended u rest (Or.inl ⟨_, _, rfl⟩) hst rfl ⟨fun v => ?_, ?_⟩
      · by_cases hv : v = u
        · subst hv; simp [failWorld, scheduleResume, upd_self, hs, TState.isDone]
        · simp [failWorld, scheduleResume, upd_ne _ _ hv]
      · simp [failWorld, scheduleResume, ends]
  cases he with
  | enter => exact .same rfl (hno (by simp) (by simp [coroEnd]))
  | fire m hi hp =>
    exact .same (react_aux _ _).1.stack (hno (by simp) (by simp [coroEnd]))
  | popCancelled e rest hi hst hq hc => exact .same rfl (hno (by simp) (by simp [coroEnd]))
  | popRun e rest hi hst hq hc =>
    exact .popped e.task rfl hst (by simp [resume, hst]) (hno (by simp) (by simp [coroEnd]))
  | exit => exact .same rfl (hno (by simp) (by simp [coroEnd]))
  | nop => exact .same rfl ⟨fun _ => rfl, rfl⟩
  | startSoon u hi hs => exact .same rfl (hno (by simp) (by simp [coroEnd]))
  | startNext u hi hs => exact .same rfl (hno (by simp) (by simp [coroEnd]))
  | cancelPending u w1 hi hu hd =>
    obtain ⟨-, d2, -⟩ := deregister_task hd
    exact .same (by simp [bumpCancel, World.setTask, scheduleResume, d2])
      (hno (by simp) (by simp [coroEnd]))
  | cancelScheduled u hi hs => exact .same rfl (hno (by simp) (by simp [coroEnd]))
  | cancelUnstarted u hi hs => exact .same rfl (hno (by simp) (by simp [coroEnd]))
  | kill u w1 hi hnd hnr hd =>
    obtain ⟨d1, d2, -, -, -, -, -, nl, d8, d9⟩ := detach_task hd
    refine .killed u rfl (by simp [setOutcome, d2]) ⟨fun v hv => ?_, hnd, ?_, ?_⟩
    · simp [setOutcome, upd_ne _ _ hv, d1]
    · simp [setOutcome, upd_self, TState.isDone]
    · simp only [setOutcome, d8, ends_append, ends_lockish d9, List.append_nil]
      rfl
  | cancelNow u w1 hi hnd hnr hd =>
    obtain ⟨d1, d2, -⟩ := detach_task hd
    refine .entered u rfl ?_ (hno (by simp) (by simp [coroEnd]))
    simp only [resume, bumpCancel, World.setTask, d2]
    split <;> rfl
  | uncancel u hi => exact .same rfl (hno (by simp) (by simp [coroEnd]))
  | addCbDone u hi hs => exact .same rfl (hno (by simp) (by simp [coroEnd]))
  | addCb u hi hs => exact .same rfl (hno (by simp) (by simp [coroEnd]))
  | setE e' hi =>
    exact .same (by unfold setEvent; rw [(react_aux _ _).1.stack]; rfl)
      (hno (by simp) (by simp [coroEnd]))
  | clearE e' hi => exact .same rfl (hno (by simp) (by simp [coroEnd]))
  | release l m hi hc hp => exact .same rfl (hno (by simp) (by simp [coroEnd]))
  | releaseGrant l m n ns hi hc hpd =>
    exact .same (by simp [acquireAndFire, (react_aux _ _).1.stack, World.addLog, World.setLock])
      (hno (by simp) (by simp [coroEnd]))
  | await u rest g fails hi hst hr hm =>
    have hs := (hg.stk.run u).1 (by simp [hst])
    have hX : Inv D { w with stack := rest } [u] :=
      (hg.inv.addX (t := u) (by rw [hs]; exact not_waiting_running)).congr rfl rfl rfl rfl rfl
    obtain ⟨⟨nl, e0, e1⟩, e2, -, -, -, -, e6, hh, e7⟩ := register_task (t := u) (g := g)
      (w := (World.setTask { w with stack := rest } u
          { w.task u with state := .pending }).addLog (.suspend u g))
      (Inv.log (hX.setTaskX (by simp)) _)
      (by simp [World.addLog, World.setTask, upd_self])
    refine .suspended u rest (Or.inl ⟨_, _, rfl⟩) hst (by dsimp only; rw [e2]; rfl)
      ⟨fun v => ?_, ?_⟩
    · by_cases hv : v = u
      · subst hv
        rw [hs]
        rcases e7 with e7 | ⟨k, e7⟩
        · dsimp only; rw [e7]; simp [World.addLog, World.setTask, upd_self, TState.isDone]
        · dsimp only; rw [e7]; simp [TState.isDone]
      · rcases e6 v hv with e6 | ⟨e6, k, e6'⟩
        · dsimp only; rw [e6]; simp [World.addLog, World.setTask, upd_ne _ _ hv]
        · simp only [World.addLog, World.setTask, upd_ne _ _ hv] at e6
          dsimp only; rw [e6']; simp [e6, TState.isDone]
    · dsimp only
      rw [e0, ends_append, ends_lockish e1]
      simp [World.addLog, World.setTask, ends]
  | yieldBad u rest hi hst hm =>
    have hs := (hg.stk.run u).1 (by simp [hst])
    refine .suspended u rest (Or.inr rfl) hst rfl ⟨fun v => ?_, ?_⟩
    · by_cases hv : v = u
      · subst hv; simp [scheduleResume, upd_self, hs, TState.isDone]
      · simp [scheduleResume, World.addLog, upd_ne _ _ hv]
    · simp [scheduleResume, World.addLog, ends]
  | finish a u rest s o how hi hst hce =>
    have hs := (hg.stk.run u).1 (by simp [hst])
    refine .ended u rest how (coroEnd_how hce) (coroEnd_act hce) hst rfl
      ⟨fun v hv => ?_, by rw [hs]; rfl, ?_, ?_⟩
    · simp [setOutcome, upd_ne _ _ hv]
    · simp only [setOutcome, upd_self]
      exact coroEnd_done hce
    · simp [setOutcome, ends]
  | cbNext u i how rest c hi hst hc =>
    exact .next u i how rest c rfl hst hc rfl (hno (by simp) (by simp [coroEnd]))
  | cbEnd u i how rest hi hst hc =>
    have hx1 := (react_aux { w with stack := rest } (.complete u)).1
    have hx2 := (react_aux (react { w with stack := rest } (.complete u)) (.join u)).1
    refine .last u i how rest rfl hst hc ?_ (hno (by simp) (by simp [coroEnd]))
    unfold finishEnd; cases how <;> simp [hx2.stack, hx1.stack]

end Verif.Sched
