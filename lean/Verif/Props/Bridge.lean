import Verif.Lemmas.BridgeIdle

/-!
Properties of `bridge` and `resume` (C64, C65).
-/

namespace Verif

open Bridge BridgeSpec

namespace Bridge

theorem reach_of {s : St} {as : List Act} (h : run {} as = some s) : ReachBy (fun _ _ => True) s :=
  reach_by ⟨as, h⟩

/-- The steps of `as` all satisfy `ok`. -/
def allOk (ok : St → Act → Bool) : St → List Act → Bool
  | _, [] => true
  | s, a :: as => ok s a && match exec s a with
    | some s' => allOk ok s' as
    | none => true

theorem reachBy_of {ok : St → Act → Prop} {okB : St → Act → Bool} (hok : ∀ s a, okB s a = true → ok s a) :
    ∀ {as : List Act} {s s' : St}, ReachBy ok s → allOk okB s as = true → run s as = some s' →
      ReachBy ok s'
  | [], s, s', h, _, he => by cases he; exact h
  | a :: as, s, s', h, hb, he => by
    rw [run] at he
    rw [allOk, Bool.and_eq_true] at hb
    split at he
    · rename_i s1 hx
      rw [hx] at hb
      exact reachBy_of hok (h.step (hok _ _ hb.1) hx) hb.2 he
    · cases he

def politeB (s : St) (a : Act) : Bool :=
  match thread a with
  | none => true
  | some t => match s.main with
    | .blocked k => s.pending[k]? == some t
    | _ => false

theorem politeB_ok (s : St) (a : Act) (h : politeB s a = true) : polite s a := by
  intro t ht
  unfold politeB at h
  rw [ht] at h
  split at h
  · rename_i e; cases e
  · rename_i t1 heq
    cases heq
    split at h
    · rename_i k hk; exact ⟨k, hk, by simpa using h⟩
    · cases h

def noCancelB : Act → Bool
  | .cancelAwaiter _ => false
  | _ => true

theorem noCancelB_ok (a : Act) (h : noCancelB a = true) : noCancel a := by
  intro t e; subst e; cases h

end Bridge

/-! ### Calls of `resume` functions -/

/-- **C64.** While the coroutine of a `resume` call is waiting to start or running in the event loop,
the thread that made the call is inside that call. -/
theorem C64_blocked_while_called {s : St} (h : Reach s) (r : Nat)
    (hr : (s.req r).stage = .scheduled ∨ (s.req r).stage = .started) :
    ((s.ext (s.req r).thread).pos = .queued r ∨ (s.ext (s.req r).thread).pos = .waiting r) ∧
    ¬ Runs s (s.req r).thread := by
  have := (h.inv.1.open_ r hr).1
  refine ⟨this, fun hu => ?_⟩
  unfold Runs at hu
  rcases this with h | h <;> rw [hu] at h <;> cases h

/-- **C64.** What happens to a `resume` call happens once and in order: a thread makes it, the coroutine
starts, it ends with a result or an exception, that same thread gets just that. -/
theorem C64_call_history {s : St} (h : Reach s) (r : Nat) :
    ∃ t o, ofCall r s.log <+: [.call t r, .start r, .finish r o, .deliver t r o] := by
  obtain ⟨l, -⟩ := ReachBy.log (reach_by h)
  refine ⟨(s.req r).thread, ((s.req r).outcome).getD (.value 0), ?_⟩
  cases hs : (s.req r).stage
  · rw [l.absent r hs]; exact List.nil_prefix
  · rw [l.sched r hs]; simp
  · rw [l.started r hs]; simp
  · cases ho : (s.req r).outcome with
    | none => rcases l.lost r hs ho with h | h <;> rw [h] <;> simp
    | some o =>
      by_cases hin : In s (s.req r).thread r
      · rw [l.over r o hs ho hin]; simp
      · rw [l.left r o hs ho hin]; simp

/-- **C64.** A thread that runs the code of a bridged function is known to the event loop: its `resume`
calls are accepted. -/
theorem C64_thread_known {s : St} (h : Reach s) {t : Nat} (ht : Runs s t) : t ∈ s.pending := by
  unfold Runs at ht
  exact h.inv.2.listed t (by simp [ht]) (by simp [ht])

/-- **C64, full statement.** A thread whose call is over is on its way to its result. -/
def C64_always_delivered_full : Prop :=
  ∀ s, Reach s → ∀ r, (s.req r).stage = .over →
    (s.req r).event = true ∨ s.main = .resuming r ∨ s.main = .setting r

/-- The tasks of `resume` calls are registered with the test as any other: when the test ends they are
cancelled, and if one had not started its thread is never woken. -/
theorem C64_always_delivered_counterexample : ¬ C64_always_delivered_full := by
  intro h
  have hr : (run {} [.enter 1, .pop, .bridge 0, .drained, .next, .call 0 0, .suspend 0, .next, .next,
    .cancelReq 0]).isSome = true := rfl
  obtain ⟨s, hs⟩ := Option.isSome_iff_exists.1 hr
  have := h s ⟨_, hs⟩ 0
  cases hs
  exact absurd (this rfl) (by decide)

/-- **C64, partial**: unless the task of the call is cancelled before it runs, or its coroutine ends
with `KeyboardInterrupt`, `SystemExit` or `BdbQuit`. -/
theorem C64_always_delivered_partial {s : St} (h : ReachBy (fun _ a => noLoss a) s) (r : Nat)
    (hr : (s.req r).stage = .over) :
    (s.req r).event = true ∨ s.main = .resuming r ∨ s.main = .setting r :=
  ReachBy.kept (fun _ _ x => x) h r hr

/-! ### Taking turns -/

/-- **C64, full statement.** A bridge thread runs the user's code only while the event-loop thread waits
for it. -/
def C64_exclusive_full : Prop := ∀ s, Reach s → ∀ t, Runs s t → WaitsFor s t

/-- A thread is woken as soon as its call is over, while the event loop goes on with the callbacks that
are still in its queue. -/
theorem C64_exclusive_counterexample : ¬ C64_exclusive_full := by
  intro h
  have hr : (run {} [.enter 1, .pop, .bridge 0, .drained, .next, .call 0 0, .suspend 0, .next, .next,
    .pop, .finish 0 (.value 7), .next, .next, .wake 0]).isSome = true := rfl
  obtain ⟨s, hs⟩ := Option.isSome_iff_exists.1 hr
  have := h s ⟨_, hs⟩ 0
  cases hs
  obtain ⟨k, hk, -⟩ := this rfl
  exact absurd hk (by intro h; cases h)

/-- **C64, full statement.** No bridge thread runs while the simulator has control. -/
def C64_simulator_full : Prop := ∀ s, Reach s → s.main = .outside → ∀ t, ¬ Runs s t

/-- The thread was woken early and called another `resume` function, whose coroutine ended before the
thread declared itself suspended: the thread goes on although it is recorded as suspended, and the
event loop does not wait for it. -/
theorem C64_simulator_counterexample : ¬ C64_simulator_full := by
  intro h
  have hr : (run {} [.enter 1, .pop, .bridge 0, .drained, .next, .call 0 0, .suspend 0, .next, .next,
    .pop, .finish 0 (.value 7), .next, .next, .wake 0, .call 0 1, .pop, .finish 1 (.value 8), .next, .next,
    .suspend 0, .wake 0, .drained, .next, .next, .next]).isSome = true := rfl
  obtain ⟨s, hs⟩ := Option.isSome_iff_exists.1 hr
  have := h s ⟨_, hs⟩
  cases hs
  exact this rfl 0 rfl

/-- **C64, partial**: if the operating system runs bridge threads only while the event-loop thread is
blocked waiting for them, then at most one of them runs at a time, and the event-loop thread goes on
only when that thread has called a `resume` function or ended. -/
theorem C64_exclusive_partial {s : St} (h : ReachBy polite s) :
    (∀ t, Runs s t → WaitsFor s t) ∧ (∀ t u, Runs s t → Runs s u → t = u) ∧
    (s.main = .outside → ∀ t, ¬ Runs s t) := by
  have hp := ReachBy.polite (fun _ _ x => x) h
  refine ⟨fun t ht => (waitsFor_iff s t).2 (hp.user t ht), fun t u ht hu => ?_, fun ho t ht => ?_⟩
  · have a := hp.user t ht
    have b := hp.user u hu
    rw [a] at b; cases b; rfl
  · have a := hp.user t ht
    rw [ho] at a; cases a

/-! ### Results of bridged functions -/

/-- **C65.** What becomes of a bridged function happens once and in order: it ends with a result or an
exception, and the task that awaits it gets just that. -/
theorem C65_result_once {s : St} (h : Reach s) (t : Nat) :
    ∃ o, ofThread t s.log <+: [.ret t o, .result t o] := by
  obtain ⟨-, l⟩ := ReachBy.log (reach_by h)
  cases ho : (s.ext t).outcome with
  | none => exact ⟨.value 0, by rw [l.running t ho]; exact List.nil_prefix⟩
  | some o =>
    refine ⟨o, ?_⟩
    by_cases ha : (s.ext t).awaiter = .resumed
    · rw [l.result t o ho ha]; exact List.prefix_refl _
    · rw [l.ret t o ho ha]; simp

/-- **C65.** The result is not lost between the thread's end and the awaiting task: when the thread has
left the list, that task is in the event loop's queue, was resumed, or was cancelled. -/
theorem C65_scheduled {s : St} (h : Reach s) (t : Nat) (hd : (s.ext t).pos = .dead)
    (hp : t ∉ s.pending) :
    .awaiter t ∈ s.queue ∨ (∃ o, .result t o ∈ s.log) ∨ (s.ext t).awaiter = .cancelled := by
  have hi := h.inv.2
  obtain ⟨-, l⟩ := ReachBy.log (reach_by h)
  cases hA : (s.ext t).awaiter with
  | none => rw [(hi.aw t).1 hA] at hd; cases hd
  | waiting => exact absurd (hi.deadw t hd hA) hp
  | scheduled => exact Or.inl (hi.awq t hA)
  | resumed =>
    refine Or.inr (Or.inl ?_)
    cases ho : (s.ext t).outcome with
    | none => exact absurd hd ((hi.outc t).1 ho).2
    | some o =>
      have : .result t o ∈ ofThread t s.log := by rw [l.result t o ho hA]; simp
      exact ⟨o, (List.mem_filter.1 this).1⟩
  | cancelled => exact Or.inr (Or.inr rfl)

/-- **C65, full statement.** When the event loop has nothing more to do and gives control back to the
simulator, every bridge thread that has not ended is blocked in a `resume` call whose coroutine has not
ended. -/
def C65_not_idle_full : Prop :=
  ∀ s, ReachBy polite s → s.main = .outside → ∀ t ∈ s.pending, ∃ r, BlockedIn s t r

/-- The list of threads is shortened while it is iterated over, so the thread after one that ended is
skipped. If the task that awaited the ended thread was cancelled, there is no further round and the
skipped thread is not even started. -/
theorem C65_not_idle_counterexample : ¬ C65_not_idle_full := by
  intro h
  have hr : (run {} [.enter 1, .pop, .bridge 0, .bridge 1, .cancelAwaiter 0, .drained, .next,
    .ret 0 (.value 3), .done 0, .next, .next]).isSome = true := rfl
  obtain ⟨s, hs⟩ := Option.isSome_iff_exists.1 hr
  have hp := reachBy_of politeB_ok (s' := s) .init rfl hs
  have := h s hp
  cases hs
  obtain ⟨r, hr, -⟩ := this rfl 1 (by decide)
  cases hr

/-- **C65, partial**: if no task that awaits a bridged function is cancelled. -/
theorem C65_not_idle_partial {s : St} (h : ReachBy (fun s a => polite s a ∧ noCancel a) s)
    (ho : s.main = .outside) : ∀ t ∈ s.pending, ∃ r, BlockedIn s t r := by
  intro t ht
  have hp := ReachBy.polite (fun _ _ x => x.1) h
  have hst := ((ReachBy.idle h).out ho).2 t ht
  have hi := (ReachBy.inv h).2
  have hu := hp.user t
  have hq := hp.queued t
  have hrr := hp.returned t
  have hw := hp.wait t
  have h1 := hi.here t ht
  have h2 := hi.init t
  have h3 := hi.exited t
  rw [ho] at hu hq hrr
  cases hpos : (s.ext t).pos with
  | waiting r =>
    refine ⟨r, hpos, ?_⟩
    rcases hw r hpos with ⟨-, h, -⟩ | ⟨h, -⟩
    · exact h
    · rw [hst] at h; cases h
  | absent => exact absurd hpos h1
  | fresh => simp [hpos, hst] at h2
  | user => cases hu hpos
  | queued r => cases hq r hpos
  | returned => cases hrr hpos
  | dead => simp [hpos, hst] at h3

/-- **C65, partial**: if no task that awaits a bridged function is cancelled, every bridged function that
has ended has had its result delivered by the time the simulator has control. -/
theorem C65_all_delivered_partial {s : St} (h : ReachBy (fun s a => polite s a ∧ noCancel a) s)
    (ho : s.main = .outside) (t : Nat) (o : Outcome) (hr : .ret t o ∈ s.log) :
    .result t o ∈ s.log := by
  obtain ⟨-, l⟩ := ReachBy.log h
  have hn := ReachBy.idle h
  have hi := (ReachBy.inv h).2
  have hp := ReachBy.polite (fun _ _ x => x.1) h
  have hmem : .ret t o ∈ ofThread t s.log := List.mem_filter.2 ⟨hr, by simp⟩
  cases hoc : (s.ext t).outcome with
  | none => rw [l.running t hoc] at hmem; cases hmem
  | some o1 =>
    by_cases ha : (s.ext t).awaiter = .resumed
    · rw [l.result t o1 hoc ha] at hmem
      have : o = o1 := by simpa using hmem
      subst this
      have : .result t o ∈ ofThread t s.log := by rw [l.result t o hoc ha]; simp
      exact (List.mem_filter.1 this).1
    · exfalso
      have hout := hn.out ho
      have hd : (s.ext t).pos = .dead := by
        have h1 := hi.outc t
        have h2 := hp.returned t
        rw [ho] at h2
        rw [hoc] at h1
        by_cases hx : (s.ext t).pos = .dead
        · exact hx
        · by_cases hy : (s.ext t).pos = .returned
          · cases h2 hy
          · simp [hx, hy] at h1
      cases hA : (s.ext t).awaiter with
      | none => rw [(hi.aw t).1 hA] at hd; cases hd
      | waiting =>
        have := hout.2 t (hi.deadw t hd hA)
        rw [(hi.exited t).2 hd] at this; cases this
      | scheduled => have := hi.awq t hA; rw [hout.1] at this; cases this
      | resumed => exact ha hA
      | cancelled => exact hn.nc t hA

/-! ### Examples -/

/-- Two threads; the first calls a `resume` function that takes two rounds of the event loop; both end,
the second with an exception. -/
def bridgeRun : List Act :=
  [.enter 2, .pop, .bridge 0, .pop, .bridge 1, .drained,
   .next, .call 0 0, .suspend 0, .next, .next, .ret 1 (.error 9), .done 1, .next, .next,
   .pop, .pop, .drained, .next, .next, .next,
   .enter 1, .pop, .finish 0 (.value 4), .next, .next, .drained,
   .next, .wake 0, .ret 0 (.value 5), .done 0, .next, .next, .pop, .drained, .next]

example : (run {} bridgeRun).map (fun s => (s.main, s.queue, s.pending)) = some (.outside, [], []) :=
  rfl

example : (run {} bridgeRun).map (fun s => ofCall 0 s.log) =
    some [.call 0 0, .start 0, .finish 0 (.value 4), .deliver 0 0 (.value 4)] := rfl

example : (run {} bridgeRun).map (fun s => (ofThread 0 s.log, ofThread 1 s.log)) =
    some ([.ret 0 (.value 5), .result 0 (.value 5)], [.ret 1 (.error 9), .result 1 (.error 9)]) := rfl

/-- This run meets the hypotheses of the partial theorems. -/
example : ∃ s, run {} bridgeRun = some s ∧ ReachBy (fun s a => polite s a ∧ noCancel a) s ∧
    s.main = .outside := by
  refine ⟨_, rfl, reachBy_of (okB := fun s a => politeB s a && noCancelB a) ?_ .init
    (by rfl : allOk _ {} bridgeRun = true) rfl, rfl⟩
  intro s a h
  rw [Bool.and_eq_true] at h
  exact ⟨politeB_ok s a h.1, noCancelB_ok a h.2⟩

/-- In the middle of it the simulator has control while thread 0 is blocked in its call. -/
example : (run {} (bridgeRun.take 21)).map (fun s =>
    (s.main, s.pending, (s.ext 0).pos, (s.req 0).stage)) =
    some (.outside, [0], .waiting 0, .started) := rfl

end Verif
