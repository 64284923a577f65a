import Verif.Lemmas.Sched

namespace Verif.Sched

variable {D : Trig → Prop}

/-- The observation is about task `t`. -/
def Obs.about (t : Nat) : Obs → Bool
  | .start u | .suspend u _ | .suspendBad u | .resume u _ | .done u _ _ | .regCb u _ | .doneCb u _ => u == t
  | _ => false

/-- What one action `a` can do to the record of task `t`, with the observations about `t`. -/
inductive TStep (a : Act) (t : Nat) (r : TaskRec) : TaskRec → List Obs → Prop
  | same : TStep a t r r []
  | wake (k : Nat) (hs : r.state = .pending) :
    TStep a t r { r with state := .scheduled, exc := none, scb := some k } []
  | start (k : Nat) (ha : a = .startSoon t ∨ a = .startNext t) (hs : r.state = .unstarted) :
    TStep a t r { r with state := .scheduled, exc := none, scb := some k } [.start t]
  | cancelP (k : Nat) (ha : a = .cancel t) (hs : r.state = .pending) :
    TStep a t r { r with state := .scheduled, exc := some .cancelled, scb := some k,
                         mustCancel := r.mustCancel + 1 } []
  | cancelS (ha : a = .cancel t) (hs : r.state = .scheduled) :
    TStep a t r { r with exc := some .cancelled, mustCancel := r.mustCancel + 1 } []
  | cancelU (k : Nat) (ha : a = .cancel t) (hs : r.state = .unstarted) :
    TStep a t r { r with state := .scheduled, exc := some .cancelled, scb := some k,
                         mustCancel := r.mustCancel + 1 } [.start t]
  | kill (ha : a = .kill t) (hnd : r.state.isDone = false) (hnr : r.state ≠ .running) :
    TStep a t r { r with state := .finished, outcome := some .noneKilled }
      [.done t .finished .noneKilled]
  | cancelNow (ha : a = .cancelNow t) (hnd : r.state.isDone = false) (hnr : r.state ≠ .running) :
    TStep a t r { r with state := .running, exc := some .cancelled,
                         mustCancel := r.mustCancel + 1 }
      ((if r.state = .unstarted then [.start t] else []) ++ [.resume t (some .cancelled)])
  | run (ha : a = .pop) (hs : r.state = .scheduled) :
    TStep a t r { r with state := .running } [.resume t r.exc]
  | uncancel (ha : a = .uncancel t) : TStep a t r { r with mustCancel := r.mustCancel - 1 } []
  | addCb (c : Nat) (ha : a = .addCb t) (hs : r.state.isDone = false) :
    TStep a t r { r with doneCbs := r.doneCbs ++ [c] } [.regCb t c]
  | addCbDone (c : Nat) (ha : a = .addCb t) (hs : r.state.isDone = true) :
    TStep a t r { r with doneCbs := r.doneCbs ++ [c] } [.regCb t c, .doneCb t c]
  | suspend (g : Trig) (h : Nat) (ha : ∃ f, a = .await g f) (hs : r.state = .running)
      (hm : r.mustCancel = 0) :
    TStep a t r { r with state := .pending, tcb := some (g, h) } [.suspend t g]
  | suspendWoken (g : Trig) (h k : Nat) (ha : ∃ f, a = .await g f) (hs : r.state = .running)
      (hm : r.mustCancel = 0) :
    TStep a t r { r with state := .scheduled, tcb := some (g, h), exc := none, scb := some k }
      [.suspend t g]
  | suspendFail (n h k : Nat) (ha : a = .await (.gpi n) true) (hs : r.state = .running)
      (hm : r.mustCancel = 0) :
    TStep a t r { r with state := .scheduled, tcb := some (.gpi n, h), exc := some .primeError,
                         scb := some k } [.suspend t (.gpi n)]
  | yieldBad (k : Nat) (ha : a = .yieldBad) (hs : r.state = .running) (hm : r.mustCancel = 0) :
    TStep a t r { r with state := .scheduled, exc := some .typeError, scb := some k }
      [.suspendBad t]
  | finish (s : TState) (o : Outcome) (how : How) (hs : r.state = .running)
      (he : coroEnd r.mustCancel a = some (s, o, how)) :
    TStep a t r { r with state := s, outcome := some o } [.done t s o]
  | cb (c : Nat) (ha : a = .cbStep) (hs : r.state.isDone = true) : TStep a t r r [.doneCb t c]

/-- Fields a wake-up does not touch. -/
structure SameAux (w w' : World) : Prop where
  stack : w'.stack = w.stack
  current : w'.current = w.current
  inside : w'.inside = w.inside
  halted : w'.halted = w.halted
  log : w'.log = w.log
  primed : w'.primed = w.primed
  fired : w'.fired = w.fired
  lock : w'.lock = w.lock
  nCb : w'.nCb = w.nCb

theorem wakeAll_aux (l : List (Nat × Nat)) : ∀ w : World,
    SameAux w (wakeAll w l) ∧ (wakeAll w l).cbs = w.cbs ∧ (wakeAll w l).nHandle = w.nHandle := by
  induction l with
  | nil => intro w; exact ⟨⟨rfl, rfl, rfl, rfl, rfl, rfl, rfl, rfl, rfl⟩, rfl, rfl⟩
  | cons p l ih =>
    intro w
    obtain ⟨h, t⟩ := p
    obtain ⟨⟨a1, a2, a3, a4, a5, a6, a7, a8, a9⟩, b, c⟩ := ih (scheduleResume w t none)
    exact ⟨⟨a1, a2, a3, a4, a5, a6, a7, a8, a9⟩, b, c⟩

theorem wakeAll_task_not_mem (l : List (Nat × Nat)) : ∀ (w : World) (t : Nat),
    t ∉ l.map Prod.snd → (wakeAll w l).task t = w.task t := by
  induction l with
  | nil => intro w t _; rfl
  | cons p l ih =>
    intro w t ht
    obtain ⟨h, u⟩ := p
    simp only [List.map_cons, List.mem_cons, not_or] at ht
    rw [wakeAll, ih _ _ ht.2]
    simp [scheduleResume, upd_ne _ _ ht.1]

theorem wakeAll_task_mem (l : List (Nat × Nat)) : ∀ (w : World) (t : Nat),
    t ∈ l.map Prod.snd → ∃ k, (wakeAll w l).task t =
      { w.task t with state := .scheduled, exc := none, scb := some k } := by
  induction l with
  | nil => intro w t h; simp at h
  | cons p l ih =>
    intro w t ht
    obtain ⟨h, u⟩ := p
    rw [wakeAll]
    by_cases hm : t ∈ l.map Prod.snd
    · obtain ⟨k, hk⟩ := ih (scheduleResume w u none) t hm
      refine ⟨k, ?_⟩
      rw [hk]
      by_cases he : t = u
      · subst he; simp [scheduleResume, upd_self]
      · simp [scheduleResume, upd_ne _ _ he]
    · rw [wakeAll_task_not_mem _ _ _ hm]
      have : t = u := by simpa [hm] using ht
      subst this
      exact ⟨w.nEntry, by simp [scheduleResume, upd_self]⟩

/-- Is task `t` registered with trigger `g`? -/
def On (w : World) (g : Trig) (t : Nat) : Prop := t ∈ (w.cbs g).map Prod.snd

theorem react_aux (w : World) (g : Trig) : SameAux w (react w g) ∧
    (react w g).cbs = upd w.cbs g [] ∧ (react w g).nHandle = w.nHandle := by
  obtain ⟨⟨a1, a2, a3, a4, a5, a6, a7, a8, a9⟩, b, c⟩ :=
    wakeAll_aux (w.cbs g) { w with cbs := upd w.cbs g [] }
  exact ⟨⟨a1, a2, a3, a4, a5, a6, a7, a8, a9⟩, b, c⟩

theorem react_task_off (w : World) (g : Trig) (t : Nat) (h : ¬ On w g t) :
    (react w g).task t = w.task t :=
  wakeAll_task_not_mem _ { w with cbs := upd w.cbs g [] } t h

theorem react_task_on (w : World) (g : Trig) (t : Nat) (h : On w g t) :
    ∃ k, (react w g).task t = { w.task t with state := .scheduled, exc := none, scb := some k } :=
  wakeAll_task_mem _ { w with cbs := upd w.cbs g [] } t h

theorem Inv.on_pending {w : World} {X t g} (h : Inv D w X) (hD : ¬ D g) (ho : On w g t) :
    (w.task t).state = .pending := by
  obtain ⟨⟨k, u⟩, hm, rfl⟩ := List.mem_map.1 ho
  by_cases hX : u ∈ X
  · exact absurd ((h.det u hX).1 g k hm) hD
  · exact ((h.ok u hX).reg g k hm hD).1

theorem react_tstep {w : World} {g : Trig} {t : Nat} {a} {X} (h : Inv D w X) (hD : ¬ D g) :
    TStep a t (w.task t) ((react w g).task t) [] := by
  by_cases ho : On w g t
  · obtain ⟨k, hk⟩ := react_task_on w g t ho
    rw [hk]; exact .wake k (h.on_pending hD ho)
  · rw [react_task_off w g t ho]; exact .same

/-- Two wake-ups in a row. -/
theorem react2_tstep {w : World} {g g' : Trig} {t : Nat} {a} (h : Inv D w []) (hD : ¬ D g)
    (hD' : ¬ D g') :
    TStep a t (w.task t) ((react (react w g) g').task t) [] := by
  have h1 := h.react (by simp) hD
  by_cases ho : On (react w g) g' t
  · have hp := h1.on_pending hD' ho
    have ho1 : ¬ On w g t := by
      intro hc
      obtain ⟨k, hk⟩ := react_task_on w g t hc
      rw [hk] at hp; cases hp
    obtain ⟨k, hk⟩ := react_task_on (react w g) g' t ho
    rw [hk, react_task_off w g t ho1]
    rw [react_task_off w g t ho1] at hp
    exact .wake k hp
  · rw [react_task_off _ g' t ho]; exact react_tstep h hD

/-- What `prime` does to the records and the log. -/
theorem prime_task {w w' : World} {g : Trig} (hp : prime w g false = some w') :
    ∀ t, w'.task t = w.task t ∨
      ((∀ n, g ≠ .gpi n) ∧ On w g t ∧ ∃ k, w'.task t = { w.task t with state := .scheduled, exc := none, scb := some k }) := by
  have hr : ∀ (v : World), v.task = w.task → v.cbs = w.cbs → (∀ n, g ≠ .gpi n) → ∀ t,
      (react v g).task t = w.task t ∨
      ((∀ n, g ≠ .gpi n) ∧ On w g t ∧ ∃ k, (react v g).task t =
        { w.task t with state := .scheduled, exc := none, scb := some k }) := by
    intro v hv hc hg t
    by_cases ho : On w g t
    · right
      refine ⟨hg, ho, ?_⟩
      obtain ⟨k, hk⟩ := react_task_on v g t (by unfold On; rw [hc]; exact ho)
      exact ⟨k, by rw [hk, hv]⟩
    · left; rw [react_task_off v g t (by unfold On; rw [hc]; exact ho), hv]
  intro t
  cases g <;> simp only [prime, Bool.false_eq_true, if_false, Option.some.injEq] at hp <;> subst hp
  case gpi n => left; rfl
  case null n => exact hr w rfl rfl (by simp) t
  case lock l n =>
    unfold primeLock
    split
    · exact hr (((w.addLog (.req l n)).setLock l
        { (w.addLog (.req l n)).lock l with current := some n }).addLog (.grant l n)) rfl rfl (by simp) t
    · left; rfl
  all_goals
    split
    · exact hr w rfl rfl (by simp) t
    · left; rfl

/-- Log entries of the lock machinery. -/
def Obs.lockish : Obs → Bool
  | .req _ _ | .drop _ _ | .grant _ _ | .rel _ => true
  | _ => false

theorem lockish_about {l : List Obs} (h : ∀ o ∈ l, o.lockish = true) (t : Nat) :
    l.filter (·.about t) = [] := by
  apply List.filter_eq_nil_iff.2
  intro o ho
  have := h o ho
  cases o <;> simp_all [Obs.lockish, Obs.about]

theorem prime_log {w w' : World} {g : Trig} (hp : prime w g false = some w') :
    ∃ new, w'.log = w.log ++ new ∧ (∀ o ∈ new, o.lockish = true) ∧
      w'.stack = w.stack ∧ w'.inside = w.inside ∧ w'.halted = w.halted ∧ w'.nCb = w.nCb ∧
      w'.fired = w.fired ∧ w'.current = w.current := by
  have hr : ∀ (v : World) g, (react v g).log = v.log ∧ (react v g).stack = v.stack ∧
      (react v g).inside = v.inside ∧ (react v g).halted = v.halted ∧ (react v g).nCb = v.nCb ∧
      (react v g).fired = v.fired ∧ (react v g).current = v.current := by
    intro v g; have := (react_aux v g).1
    exact ⟨this.log, this.stack, this.inside, this.halted, this.nCb, this.fired, this.current⟩
  cases g <;> simp only [prime, Bool.false_eq_true, if_false, Option.some.injEq] at hp <;> subst hp
  case gpi n => exact ⟨[], by simp⟩
  case null n => exact ⟨[], by simp [hr w (.null n)]⟩
  case lock l n =>
    unfold primeLock
    split
    · unfold acquireAndFire
      refine ⟨[.req l n, .grant l n], ?_⟩
      simp [hr, World.addLog, World.setLock, Obs.lockish]
    · exact ⟨[.req l n], by simp [World.addLog, World.setLock, Obs.lockish]⟩
  all_goals
    split
    · exact ⟨[], by simp [hr w _]⟩
    · exact ⟨[], by simp⟩

theorem deregister_task {w w' : World} {cb} (h : deregister w cb = some w') :
    w'.task = w.task ∧ w'.stack = w.stack ∧ w'.queue = w.queue ∧
    w'.inside = w.inside ∧ w'.halted = w.halted ∧ w'.nCb = w.nCb ∧ w'.fired = w.fired ∧
    w'.current = w.current ∧
    ∃ new, w'.log = w.log ++ new ∧ ∀ o ∈ new, o.lockish = true := by
  have hu : ∀ (v v' : World) g, unprime v g = some v' →
      ∃ new, v'.log = v.log ++ new ∧ ∀ o ∈ new, o.lockish = true := by
    intro v v' g hv
    cases g <;> simp only [unprime] at hv
    case gpi n =>
      split at hv
      · simp only [Option.some.injEq] at hv; subst hv; exact ⟨[], by simp⟩
      · cases hv
    case lock l n =>
      simp only [Option.some.injEq] at hv; subst hv
      unfold unprimeLock
      split
      · exact ⟨[.drop l n], by simp [World.addLog, World.setLock, Obs.lockish]⟩
      · exact ⟨[], by simp⟩
    all_goals (simp only [Option.some.injEq] at hv; subst hv; exact ⟨[], by simp⟩)
  unfold deregister at h
  split at h
  · cases h
  · split at h
    · dsimp only at h
      split at h
      · have := unprime_core h
        exact ⟨this.1, this.2.2.2.2.2.1, this.2.2.1, this.2.2.2.2.2.2.2.2.1,
          this.2.2.2.2.2.2.2.2.2.1, this.2.2.2.2.2.2.2.2.2.2, this.2.2.2.2.2.2.1,
          this.2.2.2.2.2.2.2.1, by obtain ⟨new, h1, h2⟩ := hu _ _ _ h; exact ⟨new, h1, h2⟩⟩
      · simp only [Option.some.injEq] at h; subst h
        exact ⟨rfl, rfl, rfl, rfl, rfl, rfl, rfl, rfl, [], by simp⟩
    · cases h

theorem detach_task {w w' : World} {t} (h : detach w t = some w') :
    w'.task = w.task ∧ w'.stack = w.stack ∧
    w'.inside = w.inside ∧ w'.halted = w.halted ∧ w'.nCb = w.nCb ∧ w'.fired = w.fired ∧
    w'.current = w.current ∧
    ∃ new, w'.log = w.log ++ new ∧ ∀ o ∈ new, o.lockish = true := by
  unfold detach at h
  split at h
  · have := deregister_task h
    exact ⟨this.1, this.2.1, this.2.2.2⟩
  · simp only [Option.some.injEq] at h; subst h
    exact ⟨rfl, rfl, rfl, rfl, rfl, rfl, rfl, [], by simp [cancelEntry]⟩
  · simp only [Option.some.injEq] at h; subst h
    exact ⟨rfl, rfl, rfl, rfl, rfl, rfl, rfl, [], by simp⟩

/-- `register` in detail. -/
theorem register_task {w : World} {t g} (h : Inv D w [t]) (hs : (w.task t).state = .pending) :
    (∃ new, (register w g t false).log = w.log ++ new ∧ (∀ o ∈ new, o.lockish = true)) ∧
    (register w g t false).stack = w.stack ∧
    (register w g t false).inside = w.inside ∧ (register w g t false).halted = w.halted ∧
    (register w g t false).nCb = w.nCb ∧ (register w g t false).fired = w.fired ∧
    (∀ u, u ≠ t → (register w g t false).task u = w.task u ∨
      (w.task u).state = .pending ∧ ∃ k, (register w g t false).task u =
        { w.task u with state := .scheduled, exc := none, scb := some k }) ∧
    ∃ hh, (register w g t false).task t = { w.task t with tcb := some (g, hh) } ∨
      ∃ k, (register w g t false).task t =
        { w.task t with tcb := some (g, hh), state := .scheduled, exc := none, scb := some k } := by
  have h1 := h.addCb (X := []) (g := g) (r := { w.task t with tcb := some (g, w.nHandle) })
    (by simp) hs rfl
  unfold Sched.register
  dsimp only
  split
  · generalize hw : (World.mk _ _ _ _ _ _ _ _ _ _ _ _ _ _) = w1 at h1 ⊢
    obtain ⟨w2, h2⟩ := prime_ok w1 g
    rw [h2]
    dsimp only
    obtain ⟨new, e1, e2, e3, e4, e5, e6, e7, e8⟩ := prime_log h2
    have hp := prime_task h2
    have hwt : w1.task = upd w.task t { w.task t with tcb := some (g, w.nHandle) } := by rw [← hw]
    refine ⟨⟨new, by rw [e1, ← hw], e2⟩, by rw [e3, ← hw], by rw [e4, ← hw], by rw [e5, ← hw],
      by rw [e6, ← hw], by rw [e7, ← hw], fun u hu => ?_, w.nHandle, ?_⟩
    · rcases hp u with hp | ⟨hng, ho, k, hk⟩
      · left; rw [hp, hwt, upd_ne _ _ hu]
      · right
        have := h1.on_pending (h1.gpiDead hng) ho
        rw [hwt, upd_ne _ _ hu] at this
        exact ⟨this, k, by rw [hk, hwt, upd_ne _ _ hu]⟩
    · rcases hp t with hp | ⟨hng, ho, k, hk⟩
      · left; rw [hp, hwt, upd_self]
      · right; exact ⟨k, by rw [hk, hwt, upd_self]⟩
  · exact ⟨⟨[], by simp⟩, rfl, rfl, rfl, rfl, rfl, fun u hu => Or.inl (by simp [upd_ne _ _ hu]),
      w.nHandle, Or.inl (by simp [upd_self])⟩

theorem Step.tstep {w w' : World} {a : Act} {r : Res} (h : Inv D w [])
    (hrun : ∀ t, .running t ∈ w.stack → (w.task t).state = .running)
    (hfin : ∀ t i how, .finishing t i how ∈ w.stack → (w.task t).state.isDone = true)
    (hpr : ∀ n, w.primed n = true → ¬ D (.gpi n)) (he : Step w a w' r) :
    ∃ new, w'.log = w.log ++ new ∧
      ∀ t, TStep a t (w.task t) (w'.task t) (new.filter (·.about t)) := by
  have hX : ∀ t rest, w.stack = .running t :: rest → Inv D { w with stack := rest } [t] := by
    intro t rest hst
    have hs := hrun t (by simp [hst])
    exact (h.addX (t := t) (by rw [hs]; exact not_waiting_running)).congr rfl rfl rfl rfl rfl
  have hne : ∀ {t u : Nat}, u ≠ t → (t == u) = false := by
    intro t u h; simp; exact fun h' => h h'.symm
  cases he with
  | enter => exact ⟨[], by simp, fun t => .same⟩
  | fire n hi hp =>
    refine ⟨[.fire n], by simp [(react_aux _ _).1.log, World.addLog], fun t => ?_⟩
    exact react_tstep (w := ({ w with primed := upd w.primed n false, inside := true }.addLog (.fire n)))
      (h.congr rfl rfl rfl rfl rfl) (hpr n hp)
  | popCancelled e rest hi hst hq hc => exact ⟨[], by simp, fun t => .same⟩
  | popRun e rest hi hst hq hc =>
    refine ⟨[.resume e.task (w.task e.task).exc], rfl, fun t => ?_⟩
    have hs := ((h.ok e.task (by simp)).live e (by simp [hq]) rfl hc).1
    by_cases ht : t = e.task
    · subst ht
      simp only [Obs.about, beq_self_eq_true, List.filter_cons_of_pos, List.filter_nil, resume,
        upd_self]
      exact .run rfl hs
    · simp only [Obs.about, hne ht, List.filter, resume, upd_ne _ _ ht]
      exact .same
  | exit => exact ⟨[], by simp, fun t => .same⟩
  | nop => exact ⟨[], by simp, fun t => .same⟩
  | startSoon u hi hs =>
    refine ⟨[.start u], rfl, fun t => ?_⟩
    by_cases ht : t = u
    · subst ht
      simp only [Obs.about, beq_self_eq_true, List.filter_cons_of_pos, List.filter_nil,
        World.addLog, scheduleResume, upd_self]
      exact .start _ (Or.inl rfl) hs
    · simp only [Obs.about, hne ht, List.filter, World.addLog, scheduleResume, upd_ne _ _ ht]
      exact .same
  | startNext u hi hs =>
    refine ⟨[.start u], rfl, fun t => ?_⟩
    by_cases ht : t = u
    · subst ht
      simp only [Obs.about, beq_self_eq_true, List.filter_cons_of_pos, List.filter_nil,
        World.addLog, scheduleLeft, upd_self]
      exact .start _ (Or.inr rfl) hs
    · simp only [Obs.about, hne ht, List.filter, World.addLog, scheduleLeft, upd_ne _ _ ht]
      exact .same
  | cancelPending u w1 hi hs hd =>
    obtain ⟨d1, d2, d3, d4, d5, d6, d7, d8, new, d9, d10⟩ := deregister_task hd
    refine ⟨new, d9, fun t => ?_⟩
    rw [lockish_about d10]
    by_cases ht : t = u
    · subst ht
      simp only [bumpCancel, World.setTask, scheduleResume, upd_self, d1]
      exact .cancelP _ rfl hs
    · simp only [bumpCancel, World.setTask, scheduleResume, upd_ne _ _ ht, d1]
      exact .same
  | cancelScheduled u hi hs =>
    refine ⟨[], by simp [bumpCancel, World.setTask], fun t => ?_⟩
    by_cases ht : t = u
    · subst ht
      simp only [bumpCancel, World.setTask, upd_self, List.filter_nil]
      exact .cancelS rfl hs
    · simp only [bumpCancel, World.setTask, upd_ne _ _ ht]
      exact .same
  | cancelUnstarted u hi hs =>
    refine ⟨[.start u], rfl, fun t => ?_⟩
    by_cases ht : t = u
    · subst ht
      simp only [Obs.about, beq_self_eq_true, List.filter_cons_of_pos, List.filter_nil,
        World.addLog, bumpCancel, World.setTask, scheduleResume, upd_self]
      exact .cancelU _ rfl hs
    · simp only [Obs.about, hne ht, List.filter, World.addLog, bumpCancel, World.setTask,
        scheduleResume, upd_ne _ _ ht]
      exact .same
  | kill u w1 hi hnd hnr hd =>
    obtain ⟨d1, d2, d4, d5, d6, d7, d8, new, d9, d10⟩ := detach_task hd
    refine ⟨new ++ [.done u .finished .noneKilled], ?_, fun t => ?_⟩
    · simp [setOutcome, d9]
    · rw [List.filter_append, lockish_about d10]
      by_cases ht : t = u
      · subst ht
        simp only [Obs.about, beq_self_eq_true, List.filter_cons_of_pos, List.filter_nil,
          setOutcome, upd_self, d1, List.nil_append]
        exact .kill rfl hnd hnr
      · simp only [Obs.about, hne ht, List.filter, setOutcome, upd_ne _ _ ht, d1]
        exact .same
  | cancelNow u w1 hi hnd hnr hd =>
    obtain ⟨d1, d2, d4, d5, d6, d7, d8, new, d9, d10⟩ := detach_task hd
    have d1' : w1.task = w.task := by rw [d1]; split <;> rfl
    refine ⟨(if (w.task u).state = .unstarted then [.start u] else []) ++ new ++
      [.resume u (some .cancelled)], ?_, fun t => ?_⟩
    · simp only [resume, bumpCancel, World.setTask, d9, upd_self]
      split <;> simp [World.addLog]
    · rw [List.filter_append, List.filter_append, lockish_about d10]
      by_cases ht : t = u
      · subst ht
        have : ((if (w.task t).state = .unstarted then [Obs.start t] else []).filter
            (·.about t)) = (if (w.task t).state = .unstarted then [Obs.start t] else []) := by
          split <;> simp [Obs.about]
        rw [this]
        simp only [Obs.about, beq_self_eq_true, List.filter_cons_of_pos, List.filter_nil,
          resume, bumpCancel, World.setTask, upd_self, d1', List.append_nil]
        exact .cancelNow rfl hnd hnr
      · have : ((if (w.task u).state = .unstarted then [Obs.start u] else []).filter
            (·.about t)) = [] := by
          split <;> simp [Obs.about]; exact fun h => ht h.symm
        rw [this]
        simp only [Obs.about, hne ht, List.filter, resume, bumpCancel, World.setTask,
          upd_ne _ _ ht, d1']
        exact .same
  | uncancel u hi =>
    refine ⟨[], by simp [Sched.uncancel, World.setTask], fun t => ?_⟩
    by_cases ht : t = u
    · subst ht
      simp only [Sched.uncancel, World.setTask, upd_self, List.filter_nil]
      exact .uncancel rfl
    · simp only [Sched.uncancel, World.setTask, upd_ne _ _ ht]
      exact .same
  | addCbDone u hi hs =>
    refine ⟨[.regCb u w.nCb, .doneCb u w.nCb], rfl, fun t => ?_⟩
    by_cases ht : t = u
    · subst ht
      simp only [Obs.about, beq_self_eq_true, List.filter_cons_of_pos, List.filter_nil, upd_self]
      exact .addCbDone _ rfl hs
    · simp only [Obs.about, hne ht, List.filter, upd_ne _ _ ht]
      exact .same
  | addCb u hi hs =>
    refine ⟨[.regCb u w.nCb], rfl, fun t => ?_⟩
    by_cases ht : t = u
    · subst ht
      simp only [Obs.about, beq_self_eq_true, List.filter_cons_of_pos, List.filter_nil, upd_self]
      exact .addCb _ rfl hs
    · simp only [Obs.about, hne ht, List.filter, upd_ne _ _ ht]
      exact .same
  | setE e hi =>
    refine ⟨[.setE e], ?_, fun t => ?_⟩
    · simp [setEvent, (react_aux _ _).1.log, World.addLog]
    · simp only [Obs.about, List.filter]
      exact react_tstep (w := World.addLog { w with fired := upd w.fired e true } (.setE e))
        (h.congr rfl rfl rfl rfl rfl) (h.gpiDead (by simp))
  | clearE e hi => exact ⟨[.clearE e], rfl, fun t => .same⟩
  | release l => exact ⟨[.rel l], rfl, fun t => .same⟩
  | releaseGrant l m n ns hi hc hp =>
    refine ⟨[.rel l, .grant l n], ?_, fun t => ?_⟩
    · simp [acquireAndFire, (react_aux _ _).1.log, World.addLog, World.setLock]
    · simp only [Obs.about, List.filter, acquireAndFire]
      refine react_tstep (w := World.addLog (World.setLock (((w.setLock l
        { w.lock l with current := none }).addLog
        (.rel l)).setLock l { current := none, pending := ns }) l _) (.grant l n)) (X := []) ?_ (h.gpiDead (by simp))
      exact h.congr rfl rfl rfl rfl rfl
  | await u rest g fails hi hst hr hm =>
    have hs := hrun u (by simp [hst])
    obtain ⟨⟨new, e1, e2⟩, -, -, -, -, -, e3, hh, e4⟩ := register_task (t := u) (g := g)
      (w := (World.setTask { w with stack := rest } u
          { w.task u with state := .pending }).addLog (.suspend u g))
      (Inv.log ((hX u rest hst).setTaskX (by simp)) _)
      (by simp [World.addLog, World.setTask, upd_self])
    refine ⟨[.suspend u g] ++ new, ?_, fun t => ?_⟩
    · dsimp only; rw [e1]; simp [World.addLog, World.setTask]
    · rw [List.filter_append, lockish_about e2]
      dsimp only
      by_cases ht : t = u
      · subst ht
        simp only [Obs.about, beq_self_eq_true, List.filter_cons_of_pos, List.filter_nil,
          List.append_nil]
        rcases e4 with e4 | ⟨k, e4⟩
        · rw [e4]
          simp only [World.addLog, World.setTask, upd_self]
          exact .suspend g hh ⟨_, rfl⟩ hs hm
        · rw [e4]
          simp only [World.addLog, World.setTask, upd_self]
          exact .suspendWoken g hh k ⟨_, rfl⟩ hs hm
      · simp only [Obs.about, hne ht, List.filter, List.nil_append]
        rcases e3 t ht with e3 | ⟨e3, k, e5⟩
        · rw [e3]
          simp only [World.addLog, World.setTask, upd_ne _ _ ht]
          exact .same
        · rw [e5]
          simp only [World.addLog, World.setTask, upd_ne _ _ ht] at e3 ⊢
          exact .wake k e3
  | yieldBad u rest hi hst hm =>
    have hs := hrun u (by simp [hst])
    refine ⟨[.suspendBad u], rfl, fun t => ?_⟩
    by_cases ht : t = u
    · subst ht
      simp only [Obs.about, beq_self_eq_true, List.filter_cons_of_pos, List.filter_nil,
        scheduleResume, World.addLog, upd_self]
      exact .yieldBad _ rfl hs hm
    · simp only [Obs.about, hne ht, List.filter, scheduleResume, World.addLog, upd_ne _ _ ht]
      exact .same
  | finish _ u rest s o how hi hst he =>
    have hs := hrun u (by simp [hst])
    refine ⟨[.done u s o], rfl, fun t => ?_⟩
    by_cases ht : t = u
    · subst ht
      simp only [Obs.about, beq_self_eq_true, List.filter_cons_of_pos, List.filter_nil,
        setOutcome, upd_self]
      exact .finish s o how hs he
    · simp only [Obs.about, hne ht, List.filter, setOutcome, upd_ne _ _ ht]
      exact .same
  | cbNext u i how rest c hi hst hc =>
    refine ⟨[.doneCb u c], rfl, fun t => ?_⟩
    by_cases ht : t = u
    · subst ht
      simp only [Obs.about, beq_self_eq_true, List.filter_cons_of_pos, List.filter_nil,
        World.addLog]
      exact .cb c rfl (hfin t i how (by simp [hst]))
    · simp only [Obs.about, hne ht, List.filter, World.addLog]
      exact .same
  | cbEnd u i how rest hi hst hc =>
    refine ⟨[], ?_, fun t => ?_⟩
    · simp only [finishEnd]
      cases how <;> simp [(react_aux _ _).1.log]
    · have := react2_tstep (w := { w with stack := rest }) (g := .complete u) (g' := .join u)
        (t := t) (a := .cbStep) (h.congr rfl rfl rfl rfl rfl) (h.gpiDead (by simp))
        (h.gpiDead (by simp))
      simp only [finishEnd, List.filter_nil]
      cases how <;> exact this

theorem FailStep.tstep {w w' : World} {a : Act} {r : Res}
    (hrun : ∀ t, .running t ∈ w.stack → (w.task t).state = .running) (he : FailStep w a w' r) :
    ∃ new, w'.log = w.log ++ new ∧
      ∀ t, TStep a t (w.task t) (w'.task t) (new.filter (·.about t)) := by
  cases he with
  | mk u rest n hi hst hm hc =>
    refine ⟨[.suspend u (.gpi n)], rfl, fun t => ?_⟩
    by_cases ht : t = u
    · subst ht
      simp only [Obs.about, beq_self_eq_true, List.filter_cons_of_pos, List.filter_nil,
        failWorld, scheduleResume, upd_self]
      exact .suspendFail n w.nHandle _ rfl (hrun t (by simp [hst])) hm
    · have : (u == t) = false := by simp; exact fun h => ht h.symm
      simp only [Obs.about, this, List.filter, failWorld, scheduleResume, upd_ne _ _ ht]
      exact .same

end Verif.Sched
