import Verif.Lemmas.TaskManagerFrame
import Verif.Spec.TaskManager
import Verif.Props.SchedTask

/-! C44, C45: `TaskManager`. -/

namespace Verif

open Sched TM

namespace TM

theorem failure_eq {w : World} (hr : Sched.Reach w) (t : Nat) : failure w t = TMSpec.failed w t := by
  unfold failure TMSpec.failed
  rcases C29_queries_agree hr t with ⟨-, h2, h3, h4⟩ | ⟨-, h2, h3, h4⟩ | ⟨-, h2, h3, h4⟩ | ⟨-, h2, e, h3, h4, h5⟩
  · simp [h2, h4]
  · simp [h2, h4]
  · simp [h2, h4]
  · simp [h2, h5]

theorem mem_announced {log : List Obs} {t : Nat} : t ∈ announced log ↔ TMSpec.endedIn log t = true := by
  unfold announced TMSpec.endedIn
  simp only [List.mem_filterMap, List.contains_iff_mem]
  constructor
  · rintro ⟨o, h1, h2⟩
    cases o <;> simp at h2
    subst h2; exact h1
  · intro h
    exact ⟨_, h, rfl⟩

theorem left_eq (log : List Obs) : (remOf log).map (·.1) = TMSpec.left log := by
  unfold remOf TMSpec.left
  rw [List.filter_map]
  show _ = List.map _ (List.filter _ (kids log))
  congr 2
  funext x
  by_cases h : x.1 ∈ announced log
  · simp [h, mem_announced.1 h]
  · have : TMSpec.endedIn log x.1 = false := by
      cases hx : TMSpec.endedIn log x.1 with
      | false => rfl
      | true => exact absurd (mem_announced.2 hx) h
    simp [h, this]

theorem over_eq (log : List Obs) : finished log = TMSpec.over log := by
  unfold finished TMSpec.over
  congr 1
  funext o
  cases o <;> rfl

theorem cancels_eq (log : List Obs) : cancels (finished log) (remOf log) = TMSpec.cancellations log := by
  unfold cancels TMSpec.cancellations
  rw [over_eq, ← left_eq, List.map_map]
  rfl

theorem meets_eq {ctx : Bool} {w : World} {K : List (Nat × Bool)} (hr : Sched.Reach w) (x : Obs) :
    meets ctx w K x = TMSpec.stops ctx w K x := by
  cases x with
  | ended t => simp [meets, TMSpec.stops, failure_eq hr]
  | block e =>
    rcases e with _ | e
    · rfl
    · cases e <;> rfl
  | _ => rfl

theorem met_eq {ctx : Bool} {w : World} {K : List (Nat × Bool)} (hr : Sched.Reach w) (log : List Obs) :
    met ctx w K log = log.any (TMSpec.stops ctx w K) := by
  unfold met
  rw [show meets ctx w K = TMSpec.stops ctx w K from funext fun x => meets_eq hr x]

theorem isCancel_eq (o : Obs) : o.isCancel = TMSpec.isCancel o := by cases o <;> rfl

theorem ending_eq (log : List Obs) : blockOf log = TMSpec.ending log := rfl

theorem blockExc_eq (log : List Obs) : blockExc (blockOf log) = TMSpec.blockFailure log := by
  unfold blockExc TMSpec.blockFailure
  rw [ending_eq]
  rcases TMSpec.ending log with _ | _ | e
  · rfl
  · rfl
  · cases e <;> rfl

/-- When all ends have been announced. -/
theorem TInv.order_done {s : TS} (h : TInv s) (hr : s.remaining = []) :
    TMSpec.order s = announced s.log ∧ ∀ t ∈ ids s.log, t ∈ announced s.log := by
  have hall : ∀ t ∈ ids s.log, t ∈ announced s.log := by
    intro t ht
    rw [h.core.rem] at hr
    obtain ⟨x, hx, rfl⟩ := List.mem_map.1 ht
    have := (List.filter_eq_nil_iff.1 hr) x hx
    simpa using this
  refine ⟨?_, hall⟩
  show WaitSpec.order s.w (ids s.log) = _
  have e : WaitSpec.order s.w (ids s.log) = (ends s.w.log).filter (· ∈ ids s.log) := by
    unfold WaitSpec.order ends
    induction s.w.log with
    | nil => rfl
    | cons o l ih =>
      cases o <;> simp only [List.filterMap_cons, ih]
      rename_i t _ _
      by_cases h : t ∈ ids s.log <;> simp [h, List.filter_cons]
  rw [e, h.live.own.order]
  have : justEnded (ids s.log) s.w = [] := by
    unfold justEnded
    split
    · rename_i t how rest hst
      split
      · rename_i ht
        exact absurd (by rw [hst]; simp) (h.live.own.fin0 t (hall t ht) how)
      · rfl
    · rfl
  rw [this, List.append_nil]

theorem TInv.all_done {s : TS} (h : TInv s) (hr : s.remaining = []) :
    ∀ x ∈ TMSpec.children s.log, s.w.done x.1 = true := by
  intro x hx
  exact annDone h.live x.1 ((h.order_done hr).2 x.1 (List.mem_map.2 ⟨x, hx, rfl⟩))

theorem TInv.failures {s : TS} (h : TInv s) (hr : s.remaining = []) : s.excs = TMSpec.failures s := by
  rw [h.core.excs]
  unfold excsOf TMSpec.failures
  rw [(h.order_done hr).1]
  congr 1
  funext t
  rw [failure_eq h.live.calm.reach]

end TM

/-! ### Leaving the block -/

/-- **C44.** When control goes on after the block, normally or with the group of exceptions, every child
is done. -/
theorem C44_returns_only_when_done {s : TS} (h : TM.Reach s)
    (hp : s.phase = .left .normal ∨ ∃ l, s.phase = .left (.group l)) :
    ∀ x ∈ TMSpec.children s.log, s.w.done x.1 = true := by
  have hi := h.inv
  refine hi.all_done ?_
  have := hi.ph
  rcases hp with hp | ⟨l, hp⟩ <;> rw [hp] at this <;> exact this.1

/-- **C44, full statement.** However control leaves the block, every child is done. -/
def C44_leaves_only_when_done_full : Prop :=
  ∀ s : TS, TM.Reach s → ∀ r, s.phase = .left r → ∀ x ∈ TMSpec.children s.log, s.w.done x.1 = true

/-- **C44.** It holds, except for fatal exceptions (`KeyboardInterrupt` and the like, which end the whole
run), if the task in the block is not cancelled again before it has dealt with an earlier cancellation,
is not killed, and lets a `CancelledError` out of the block. -/
theorem C44_leaves_only_when_done_partial {s : TS} {r : Leave} (h : TM.Gentle s) (hp : s.phase = .left r)
    (hf : ∀ n, r ≠ .raises (.fatal n)) : ∀ x ∈ TMSpec.children s.log, s.w.done x.1 = true := by
  have hg := h.gi
  cases r with
  | normal => exact C44_returns_only_when_done h.reach (Or.inl hp)
  | group l => exact C44_returns_only_when_done h.reach (Or.inr ⟨l, hp⟩)
  | closed => exact absurd hp hg.nice.closed
  | raises e =>
    rcases hg.nice.raises e hp with ⟨n, rfl⟩ | h1
    · exact absurd rfl (hf n)
    · exact hg.inv.all_done h1

/-- **C44.** In such a history the block's task is never ended inside the block by the scheduler, and the
`await` in front of "Reached unreachable code" is not reached. -/
theorem C44_never_closed_partial {s : TS} (h : TM.Gentle s) :
    s.phase ≠ .left .closed ∧ s.phase ≠ .killing :=
  ⟨h.gi.nice.closed, h.gi.nice.kill⟩

/-- **C44.** No lost wake-up: once the last child has ended and its callbacks have run, the task waiting at
the end of the block is no longer suspended. -/
theorem C44_parent_woken {s : TS} (h : TM.Reach s) (hp : s.phase = .ext ∨ ∃ e, s.phase = .waiting e)
    (hd : ∀ x ∈ TMSpec.children s.log, TMSpec.endedIn s.log x.1 = true) :
    (s.w.task s.parent).state ≠ .pending := by
  have hi := h.inv
  have hrem : s.remaining = [] := by
    rw [hi.core.rem]
    unfold remOf
    rw [List.filter_eq_nil_iff]
    intro x hx
    simpa using mem_announced.2 (hd x hx)
  have haw : s.phase.aw = true := by rcases hp with hp | ⟨e, hp⟩ <;> rw [hp] <;> rfl
  have hfr : s.phase ≠ .fresh := by rcases hp with hp | ⟨e, hp⟩ <;> rw [hp] <;> simp
  have hf := (hi.fired hfr).2 hrem
  have := hi.live.onE haw
  unfold OnEvent at this
  intro hc
  rw [hc] at this
  simp [TState.isDone, hf] at this

/-! ### Failures -/

/-- **C45.** The group raised by the block contains the exceptions of the children that failed, in the
order in which they ended, and the block's own exception, and nothing else. -/
theorem C45_group {s : TS} {l : List (Option Nat × Exc)} (h : TM.Reach s) (hp : s.phase = .left (.group l)) :
    l ≠ [] ∧ l = TMSpec.failures s ++ TMSpec.blockFailure s.log := by
  have hi := h.inv
  have hph := hi.ph
  rw [hp] at hph
  obtain ⟨h1, h2, h3⟩ := hph
  exact ⟨h2, by rw [h3, hi.failures h1, blockExc_eq]⟩

/-- **C45.** The block is left normally only if it and all its children succeeded or were cancelled. -/
theorem C45_normal {s : TS} (h : TM.Reach s) (hp : s.phase = .left .normal) :
    TMSpec.failures s = [] ∧ TMSpec.ending s.log = some none := by
  have hi := h.inv
  have hph := hi.ph
  rw [hp] at hph
  obtain ⟨h1, h2, h3⟩ := hph
  exact ⟨by rw [← hi.failures h1, h2], h3⟩

/-- **C45, full statement.** However the block is left, the failures of the children are reported. -/
def C45_reported_full : Prop :=
  ∀ s : TS, TM.Reach s → ∀ r, s.phase = .left r → TMSpec.failures s ≠ [] →
    ∃ l, r = .group l ∧ ∀ x ∈ TMSpec.failures s, x ∈ l

/-- **C45.** They are, unless the task in the block was cancelled, was ended by the scheduler or raised a
fatal exception. -/
theorem C45_reported_partial {s : TS} {r : Leave} (h : TM.Reach s) (hp : s.phase = .left r)
    (hr : r ≠ .closed ∧ ∀ e, r ≠ .raises e) (hf : TMSpec.failures s ≠ []) :
    ∃ l, r = .group l ∧ ∀ x ∈ TMSpec.failures s, x ∈ l := by
  cases r with
  | normal => exact absurd (C45_normal h hp).1 hf
  | group l =>
    refine ⟨l, rfl, fun x hx => ?_⟩
    rw [(C45_group h hp).2]
    simp [hx]
  | closed => exact absurd rfl hr.1
  | raises e => exact absurd rfl (hr.2 e)

/-- **C45.** When the manager cancels.  Either nothing that has happened so far is a reason to, and
nothing has been cancelled; or something was, and right after the first such thing, and at no other time,
the block was cancelled if it had not ended, and exactly the children that had not ended by then, each
once; and no task was added after that. -/
theorem C45_cancels_exactly_when {s : TS} (h : TM.Reach s) :
    (s.log.any (TMSpec.stops s.ctx s.w (TMSpec.children s.log)) = false ∧
      ∀ o ∈ s.log, TMSpec.isCancel o = false) ∨
    ∃ pre x post,
      s.log = pre ++ [x] ++ TMSpec.cancellations (pre ++ [x]) ++ post ∧
      pre.any (TMSpec.stops s.ctx s.w (TMSpec.children s.log)) = false ∧
      TMSpec.stops s.ctx s.w (TMSpec.children s.log) x = true ∧
      (∀ o ∈ pre ++ [x] ++ post, TMSpec.isCancel o = false) ∧ TMSpec.children post = [] := by
  have hi := h.inv
  have hr := hi.live.calm.reach
  cases hc : s.cancelled with
  | false =>
    obtain ⟨h1, h2⟩ := hi.core.canc.no hc
    rw [met_eq hr] at h1
    exact Or.inl ⟨h1, fun o ho => by rw [← isCancel_eq]; exact h2 o ho⟩
  | true =>
    obtain ⟨pre, x, post, h1, h2, h3, h4, h5, h6, h7⟩ := hi.core.canc.yes hc
    rw [met_eq hr] at h2
    rw [meets_eq hr] at h3
    rw [cancels_eq] at h1
    refine Or.inr ⟨pre, x, post, h1, h2, h3, fun o ho => ?_, h7⟩
    rw [← isCancel_eq]
    rcases List.mem_append.1 ho with ho | ho
    · rcases List.mem_append.1 ho with ho | ho
      · exact h4 o ho
      · exact h5 o ho
    · exact h6 o ho

/-- **C45.** A child that fails and was not to be continued after stops everything: if it is the first
such thing, the block and all other children that have not ended are cancelled on the spot. -/
theorem C45_failing_child_cancels {s : TS} {pre post : List TM.Obs} {t : Nat} {e : Exc} (h : TM.Reach s)
    (hl : s.log = pre ++ [.ended t] ++ post)
    (hpre : pre.any (TMSpec.stops s.ctx s.w (TMSpec.children s.log)) = false)
    (ht : (t, false) ∈ TMSpec.children s.log) (hf : TMSpec.failed s.w t = some e) :
    ∃ post', post = TMSpec.cancellations (pre ++ [.ended t]) ++ post' ∧
      ∀ o ∈ pre ++ post', TMSpec.isCancel o = false := by
  have hst : TMSpec.stops s.ctx s.w (TMSpec.children s.log) (.ended t) = true := by
    simp [TMSpec.stops, hf, ht]
  rcases C45_cancels_exactly_when h with ⟨h1, -⟩ | ⟨pre', x, post', h1, h2, h3, h4, -⟩
  · rw [List.any_eq_false] at h1
    exact absurd hst (h1 (.ended t) (by rw [hl]; simp))
  · have hpp : pre' = pre ∧ x = .ended t ∧
        TMSpec.cancellations (pre' ++ [x]) ++ post' = post := by
      have hq : pre' ++ (x :: (TMSpec.cancellations (pre' ++ [x]) ++ post')) = pre ++ (.ended t :: post) := by
        rw [hl] at h1
        simpa using h1.symm
      rcases List.append_eq_append_iff.1 hq with ⟨m, m1, m2⟩ | ⟨m, m1, m2⟩
      · cases m with
        | nil => simp at m1 m2; exact ⟨m1.symm, m2.1, m2.2⟩
        | cons y m =>
          simp only [List.cons_append, List.cons.injEq] at m2
          rw [List.any_eq_false] at hpre
          exact absurd h3 (hpre x (by rw [m1, m2.1]; simp))
      · cases m with
        | nil => simp at m1 m2; exact ⟨m1, m2.1.symm, m2.2.symm⟩
        | cons y m =>
          simp only [List.cons_append, List.cons.injEq] at m2
          rw [List.any_eq_false] at h2
          exact absurd hst (h2 (.ended t) (by rw [m1, m2.1]; simp))
    obtain ⟨rfl, rfl, rfl⟩ := hpp
    refine ⟨post', rfl, fun o ho => h4 o ?_⟩
    rcases List.mem_append.1 ho with ho | ho
    · simp [ho]
    · simp [ho]

/-- **C45.** A manager all of whose children are to be continued after failures, and whose block does not
fail and is not cancelled, cancels nothing. -/
theorem C45_continue_cancels_nothing {s : TS} (h : TM.Reach s)
    (hc : ∀ x ∈ TMSpec.children s.log, x.2 = true)
    (hb : ∀ e, .block (some e) ∉ s.log) (hi : .interrupted ∉ s.log) (hcl : .closed ∉ s.log) :
    ∀ o ∈ s.log, TMSpec.isCancel o = false := by
  rcases C45_cancels_exactly_when h with ⟨-, h1⟩ | ⟨pre, x, post, h1, -, h3, -⟩
  · exact h1
  · exfalso
    have hx : x ∈ s.log := by rw [h1]; simp
    cases x with
    | ended t =>
      simp only [TMSpec.stops, Bool.and_eq_true, List.contains_iff_mem] at h3
      exact absurd (hc _ h3.2) (by simp)
    | block e =>
      rcases e with _ | e
      · cases h3
      · exact hb e hx
    | interrupted => exact hi hx
    | closed => exact hcl hx
    | _ => cases h3

/-- **C45.** The step in which the manager cancels a child, or the task in its block, delivers
`CancelledError` to it: after the step that task is scheduled with that exception (what happens then is
C31). -/
theorem C45_cancel_delivered {s s' : TS} {a : TAct} (h : TM.Reach s) (he : TM.exec s a = some s') :
    (∀ t, .cancel t ∉ s.log → .cancel t ∈ s'.log →
      (s'.w.task t).state = .scheduled ∧ (s'.w.task t).exc = some .cancelled) ∧
    (.cancelParent ∉ s.log → .cancelParent ∈ s'.log → s.w.done s.parent = false →
      (s'.w.task s.parent).state = .scheduled ∧ (s'.w.task s.parent).exc = some .cancelled) := by
  obtain ⟨h1, h2⟩ := exec_delivers h.inv he
  exact ⟨fun t a b => h1 t b a, fun a b c => h2 b a c⟩

/-! ### Adding tasks -/

namespace TM

theorem refusal_open {s : TS} (h : TInv s) : refusal s = none ↔ TMSpec.open_ s = true := by
  have hr := h.live.calm.reach
  have h1 : s.cancelled = s.log.any (TMSpec.stops s.ctx s.w (TMSpec.children s.log)) := by
    cases hc : s.cancelled with
    | false =>
      have := (h.core.canc.no hc).1
      rw [met_eq hr] at this
      exact this.symm
    | true =>
      obtain ⟨pre, x, post, g1, g2, g3, -⟩ := h.core.canc.yes hc
      rw [meets_eq hr] at g3
      refine (List.any_eq_true.2 ⟨x, ?_, g3⟩).symm
      rw [g1]; simp
  have h2 : s.finishing = TMSpec.over s.log := by rw [h.core.fin, over_eq]
  have h3 : s.entered = s.log.contains .entered := by
    by_cases q1 : s.phase = .fresh
    · have := h.ph; rw [q1] at this; rw [this.1, this.2]; rfl
    by_cases q2 : s.phase = .created
    · have := h.ph; rw [q2] at this; rw [this.1, this.2]; rfl
    obtain ⟨a1, a2, -⟩ := h.ent q1 q2
    rw [a1]; simp [a2]
  unfold refusal TMSpec.open_
  rw [h1, h2, h3]
  generalize s.log.any _ = b1
  generalize TMSpec.over s.log = b2
  generalize s.log.contains _ = b3
  by_cases hc : s.w.current = some s.parent
  · cases b1 <;> cases b2 <;> cases b3 <;> simp [hc]
  · cases b1 <;> cases b2 <;> cases b3 <;> simp [hc]

end TM

/-- **C45.** `start_soon` by the task that entered the block, before the block has ended and before anything
has stopped it, starts the task as a child: it is scheduled, and it is continued after errors as asked for,
or as the manager says by default. -/
theorem C45_add {s s' : TS} {t : Nat} {coe : Option Bool} (h : TM.Reach s)
    (he : TM.exec s (.startSoon t coe) = some s') (ho : TMSpec.open_ s = true) :
    s'.log = s.log ++ [.child t (coe.getD s.dflt)] ∧ (s'.w.task t).state = .scheduled ∧
    (s'.w.task t).exc = none := by
  simp only [TM.exec] at he
  split at he
  · rename_i hc
    obtain ⟨-, ha, hf⟩ := hc
    cases he
    unfold active at ha
    simp only [Bool.and_eq_true, Bool.not_eq_true'] at ha
    obtain ⟨⟨hi, hh⟩, hq⟩ := ha
    unfold TM.startSoon
    rw [(refusal_open h.inv).2 ho]
    refine ⟨rfl, ?_⟩
    have e1 : api s.w (.addCb t) = addDoneCb s.w t := by simp [api, Sched.exec, hi, hh]
    have i1 : (addDoneCb s.w t).inside = true := by
      unfold addDoneCb; rw [hf]; simp [TState.isDone, World.addLog, hi]
    have j1 : (addDoneCb s.w t).halted = false := by
      unfold addDoneCb; rw [hf]; simp [TState.isDone, World.addLog, hh]
    have k1 : ((addDoneCb s.w t).task t).state = .unstarted := by
      unfold addDoneCb; rw [hf]; simp [TState.isDone, World.addLog, upd_self, hf]
    have e2 : api (addDoneCb s.w t) (.clearE noneRemaining) = clearEvent (addDoneCb s.w t) noneRemaining := by
      simp [api, Sched.exec, i1, j1]
    dsimp only
    rw [e1, e2]
    have i2 : (clearEvent (addDoneCb s.w t) noneRemaining).inside = true := i1
    have j2 : (clearEvent (addDoneCb s.w t) noneRemaining).halted = false := j1
    have k2 : ((clearEvent (addDoneCb s.w t) noneRemaining).task t).state = .unstarted := k1
    generalize clearEvent (addDoneCb s.w t) noneRemaining = v at i2 j2 k2 ⊢
    simp [api, Sched.exec, i2, j2, Sched.startSoon, k2, scheduleResume, World.addLog, upd_self]
  · cases he

/-- **C45.** Any other call of `start_soon` is refused and changes nothing: before the block is entered,
after it has ended, after an error, or by another task. -/
theorem C45_add_refused {s s' : TS} {t : Nat} {coe : Option Bool} (h : TM.Reach s)
    (he : TM.exec s (.startSoon t coe) = some s') (ho : TMSpec.open_ s = false) : s' = s := by
  simp only [TM.exec] at he
  split at he
  · cases he
    unfold TM.startSoon
    cases hr : refusal s with
    | some e => rfl
    | none => rw [(refusal_open h.inv).1 hr] at ho; cases ho
  · cases he

/-! ### Witnesses -/

namespace TM

theorem reach_of {as : List TAct} (h : (run {} as).isSome = true) : Reach ((run {} as).getD {}) := by
  refine ⟨as, ?_⟩
  cases hx : run {} as with
  | none => rw [hx] at h; cases h
  | some s => rfl

/-- The schedules of the examples.  Task 0 opens the block and starts the children 1 and 2; task 3 is
another task. -/
def opened (d : Bool) : List TAct :=
  [.sched .enter, .sched (.startSoon 0), .sched (.startSoon 3), .sched .pop, .new d none, .enter,
   .startSoon 1 none, .startSoon 2 none]

/-- A task has ended: its callbacks run. -/
def over : List TAct := [.sched .cbStep, .sched .cbStep]

/-- Task 3 waits; the block ends; 1 runs. -/
def waiting (d : Bool) : List TAct :=
  opened d ++ [.exit none, .sched .pop, .sched (.await (.gpi 3) false), .sched .pop]

def succeeds : List TAct :=
  waiting false ++ [.sched (.ret 1)] ++ over ++ [.sched .pop, .sched (.ret 2)] ++ over ++ [.sched .pop]

/-- Child 1 fails: child 2 is cancelled. -/
def fails : List TAct :=
  waiting false ++ [.sched (.raise (.user 1))] ++ over ++ [.sched .pop, .sched (.raise .cancelled)] ++ over ++
  [.sched .pop]

/-- Both fail, with `continue_on_error`, and so does the block. -/
def bothFail : List TAct :=
  opened true ++ [.exit (some (.user 9)), .sched .pop, .sched (.await (.gpi 3) false), .sched .pop] ++
  [.sched (.raise (.user 1))] ++ over ++ [.sched .pop, .sched (.raise (.user 2))] ++ over ++ [.sched .pop]

/-- The block is cancelled by task 3 while it waits; the children give up; it re-raises. -/
def cancelling : List TAct :=
  opened false ++ [.exit none, .sched .pop, .sched (.cancel 0), .sched (.await (.gpi 3) false),
   .sched .pop, .sched (.await (.gpi 1) false), .sched .pop, .sched (.await (.gpi 2) false), .sched .pop,
   .sched .pop, .sched (.raise .cancelled)] ++ over ++ [.sched .pop, .sched (.raise .cancelled)] ++ over ++
  [.sched .pop]

/-- The block is waiting, and is cancelled twice in one step of task 3. -/
def twice : List TAct :=
  opened false ++ [.exit none, .sched .pop, .sched (.cancel 0), .sched (.cancel 0),
   .sched (.await (.gpi 3) false), .sched .pop, .sched (.await (.gpi 1) false), .sched .pop,
   .sched (.await (.gpi 2) false), .sched .pop]

/-- The block is suspended when child 1 fails, so it is cancelled; it handles that as a nested `wait` does
(`_uncancel`), swallows the re-raised exception and ends; child 2 also takes time to give up. -/
def swallows : List TAct :=
  opened false ++ [.sched (.await (.gpi 0) false), .sched .pop, .sched (.await (.gpi 3) false), .sched .pop,
   .sched (.await (.gpi 1) false), .sched .pop, .sched (.await (.gpi 2) false), .sched .exit,
   .sched (.fire 1), .sched .pop, .sched (.raise (.user 1))] ++ over ++
  [.sched .pop, .sched (.uncancel 0), .exit none,
   .sched .pop, .sched (.uncancel 2), .sched (.await (.gpi 4) false), .sched .pop]

/-- Child 1 fails with `continue_on_error`, then the waiting block is cancelled. -/
def loses : List TAct :=
  waiting true ++ [.sched (.raise (.user 1))] ++ over ++ [.sched .pop, .sched (.cancel 0), .sched (.ret 2)] ++
  over ++ [.sched .pop]

end TM

/-- **C44.** The full statement does not hold: a task that is cancelled twice before it runs is ended at
the next `await` of `__aexit__`, with the children cancelled but still running. -/
theorem C44_leaves_only_when_done_counterexample : ¬ C44_leaves_only_when_done_full := by
  intro h
  have := h _ (TM.reach_of (as := TM.twice) (by decide +kernel)) .closed (by decide +kernel) (1, false)
    (by decide +kernel)
  revert this
  decide +kernel

/-- **C44.** Nor is "Reached unreachable code" unreachable: a block that was cancelled because a child
failed, inside a nested `wait` that took account of the cancellation (`_uncancel`), and that swallows the
`CancelledError` this re-raises, is left with that `RuntimeError` while a child is still running. -/
theorem C44_unreachable_code_counterexample :
    ∃ s, TM.Reach s ∧ s.phase = .left (.raises .runtimeError) ∧ (2, false) ∈ TMSpec.children s.log ∧
      s.w.done 2 = false ∧ (s.w.task 2).state = .pending :=
  ⟨_, TM.reach_of (as := TM.swallows) (by decide +kernel), by decide +kernel, by decide +kernel,
    by decide +kernel, by decide +kernel⟩

/-- **C45.** The full statement does not hold: the failure of a child that is to be continued after is
lost if the block is cancelled while it waits. -/
theorem C45_reported_counterexample : ¬ C45_reported_full := by
  intro h
  obtain ⟨l, h1, -⟩ := h _ (TM.reach_of (as := TM.loses) (by decide +kernel)) (.raises .cancelled)
    (by decide +kernel) (by decide +kernel)
  cases h1

/-- The block and both children succeed. -/
example : ∃ s, TM.Reach s ∧ s.phase = .left .normal ∧ TMSpec.children s.log = [(1, false), (2, false)] ∧
    TMSpec.order s = [1, 2] :=
  ⟨_, TM.reach_of (as := TM.succeeds) (by decide +kernel), by decide +kernel, by decide +kernel,
    by decide +kernel⟩

/-- A child fails; the other is cancelled; the failure is reported. -/
example : ∃ s, TM.Gentle s ∧ s.phase = .left (.group [(some 1, .user 1)]) ∧
    s.log = [.entered, .child 1 false, .child 2 false, .block none, .ended 1, .cancel 2, .ended 2] ∧
    TMSpec.failures s = [(some 1, .user 1)] := by
  have h : TM.Gentle ((TM.runGentle {} TM.fails).getD {}) := TM.runGentle_ok (as := TM.fails) .init rfl
  exact ⟨_, h, by decide +kernel, by decide +kernel, by decide +kernel⟩

/-- Both children and the block fail, with `continue_on_error`: all three are reported, nothing is
cancelled. -/
example : ∃ s, TM.Reach s ∧
    s.phase = .left (.group [(some 1, .user 1), (some 2, .user 2), (none, .user 9)]) ∧
    s.log = [.entered, .child 1 true, .child 2 true, .block (some (.user 9)), .ended 1, .ended 2] :=
  ⟨_, TM.reach_of (as := TM.bothFail) (by decide +kernel), by decide +kernel, by decide +kernel⟩

/-- The hypotheses of `C45_continue_cancels_nothing` with a failing child. -/
example : ∃ s, TM.Reach s ∧ (∀ x ∈ TMSpec.children s.log, x.2 = true) ∧ (∀ e, .block (some e) ∉ s.log) ∧
    TM.Obs.interrupted ∉ s.log ∧ TM.Obs.closed ∉ s.log ∧ TMSpec.failed s.w 1 = some (.user 1) :=
  ⟨_, TM.reach_of (as := TM.loses.take 15) (by decide +kernel), by decide +kernel, by
    have : ((TM.run {} (TM.loses.take 15)).getD {}).log =
      [.entered, .child 1 true, .child 2 true, .block none, .ended 1] := by decide +kernel
    rw [this]; simp, by decide +kernel,
    by decide +kernel, by decide +kernel⟩

/-- The block is cancelled while it waits: the children are cancelled, it waits for them and re-raises. -/
example : ∃ s, TM.Gentle s ∧ s.phase = .left (.raises .cancelled) ∧
    s.log = [.entered, .child 1 false, .child 2 false, .block none, .interrupted, .cancel 1, .cancel 2,
      .ended 1, .ended 2] := by
  have h : TM.Gentle ((TM.runGentle {} TM.cancelling).getD {}) :=
    TM.runGentle_ok (as := TM.cancelling) .init rfl
  exact ⟨_, h, by decide +kernel, by decide +kernel⟩

/-- A step in which the manager cancels a child and the task in its block. -/
example : ∃ s s', TM.Reach s ∧ TM.exec s (.sched .cbStep) = some s' ∧
    .cancel 2 ∉ s.log ∧ .cancel 2 ∈ s'.log ∧ .cancelParent ∉ s.log ∧ .cancelParent ∈ s'.log ∧
    s.w.done s.parent = false :=
  ⟨_, (TM.exec ((TM.run {} (TM.swallows.take 19)).getD {}) (.sched .cbStep)).getD {},
    TM.reach_of (as := TM.swallows.take 19) (by decide +kernel), by rfl, by decide +kernel,
    by decide +kernel, by decide +kernel, by decide +kernel, by decide +kernel⟩

/-- The task waits at the end of its block and all its children have ended. -/
example : ∃ s, TM.Reach s ∧ s.phase = .waiting none ∧ TMSpec.children s.log ≠ [] ∧
    ∀ x ∈ TMSpec.children s.log, TMSpec.endedIn s.log x.1 = true :=
  ⟨_, TM.reach_of (as := TM.succeeds.take 18) (by decide +kernel), by decide +kernel,
    by decide +kernel, by decide +kernel⟩

/-- A task may be added here, and not after the block has ended or by another task. -/
example : ∃ s s', TM.Reach s ∧ TM.exec s (.startSoon 5 (some true)) = some s' ∧ TMSpec.open_ s = true :=
  ⟨_, (TM.exec ((TM.run {} (TM.opened false)).getD {}) (.startSoon 5 (some true))).getD {},
    TM.reach_of (as := TM.opened false) (by decide +kernel), by rfl, by decide +kernel⟩
example : ∃ s s', TM.Reach s ∧ TM.exec s (.startSoon 5 none) = some s' ∧ TMSpec.open_ s = false :=
  ⟨_, (TM.exec ((TM.run {} (TM.waiting false)).getD {}) (.startSoon 5 none)).getD {},
    TM.reach_of (as := TM.waiting false) (by decide +kernel), by rfl, by decide +kernel⟩

end Verif
