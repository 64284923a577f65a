import Verif.Model.Extended
import Verif.Lemmas.Ended

/-!
Properties of `with_timeout`, `Combine`, `First` and `ClockCycles` (C67, C68, C26), of waking up (C32)
and of the order in which tasks run (C82).
-/

namespace Verif

open Sched SchedSpec ExtSpec Ext
open Wait (WS)

/-! ### Waking up -/

/-- **C32.** A task that goes on normally after an `await` goes on because the trigger it awaited
fired: a simulator callback fired while it was waiting, the event was or became set, the lock was given
to it, the other task is done. -/
theorem C32_woken_means_fired {w : World} (hr : Reach w) {t : Nat} {g : Trig}
    {before since after : List Sched.Obs}
    (hl : w.log = before ++ .suspend t g :: (since ++ .resume t none :: after))
    (hs : Still t since) : Happened g before since :=
  (waits hr t).2 g before since after hl (still_exec.1 hs)

/-! ### The order in which tasks run -/

namespace Sched

theorem run_log : ∀ {as : List Act} {w w' : World}, Reach w → run w as = some w' →
    ∃ new, w'.log = w.log ++ new
  | [], w, w', _, he => by cases he; exact ⟨[], by simp⟩
  | a :: as, w, w', hr, he => by
    rw [run] at he
    split at he
    case h_2 => cases he
    rename_i w1 r hx
    obtain ⟨D, hg⟩ := hr.good
    obtain ⟨new, hlog, -⟩ := hg.tstep (exec_step hx).2
    obtain ⟨new2, h2⟩ := run_log (hr.exec hx) he
    exact ⟨new ++ new2, by rw [h2, hlog, List.append_assoc]⟩

theorem queue_sched {D : Trig → Prop} {w : World} (hg : Good D w) {t : Nat} (h : t ∈ loopQueue w) :
    (w.task t).state = .scheduled := by
  unfold loopQueue at h
  obtain ⟨e, h1, rfl⟩ := List.mem_map.1 h
  obtain ⟨h1, h2⟩ := List.mem_filter.1 h1
  exact ((hg.inv.ok e.task (by simp)).live e h1 rfl (by simpa using h2)).1

theorem sched_queue {D : Trig → Prop} {w : World} (hg : Good D w) {t : Nat}
    (h : (w.task t).state = .scheduled) : t ∈ loopQueue w := by
  obtain ⟨e, h1, h2, h3, -⟩ := (hg.inv.ok t (by simp)).sched h
  exact List.mem_map.2 ⟨e, List.mem_filter.2 ⟨h1, by simp [h3]⟩, h2⟩

theorem ahead_sched {D : Trig → Prop} {w : World} (hg : Good D w) {t u : Nat}
    (h : Ahead t u (loopQueue w)) : (w.task t).state = .scheduled := by
  refine queue_sched hg ?_
  unfold Ahead at h
  exact (List.mem_filter.1 (List.mem_of_mem_head? h)).1

/-- Of two tasks only one is in the queue. -/
theorem ahead_of {t u : Nat} {q : List Nat} (h : t ∈ q) (hu : u ∉ q) : Ahead t u q := by
  unfold Ahead
  cases hf : q.filter (fun x => x = t ∨ x = u) with
  | nil => have := List.filter_eq_nil_iff.1 hf t h; simp at this
  | cons x l =>
    have hx : x ∈ q.filter (fun x => x = t ∨ x = u) := by rw [hf]; simp
    obtain ⟨h1, h2⟩ := List.mem_filter.1 hx
    simp only [decide_eq_true_eq] at h2
    rcases h2 with rfl | rfl
    · rfl
    · exact absurd h1 hu

/-- While `t` has not run, it stays ahead of `u`. -/
theorem run_order {t u : Nat} (htu : t ≠ u) : ∀ (as : List Act) (w w' : World), Reach w →
    Ahead t u (loopQueue w) → (w.task u).state ≠ .unstarted → (w.task u).state ≠ .running →
    (∀ a ∈ as, a ≠ .kill t ∧ a ≠ .cancelNow t ∧ a ≠ .kill u ∧ a ≠ .cancelNow u) →
    run w as = some w' → ∃ new, w'.log = w.log ++ new ∧
      ∀ p e q, new = p ++ .resume u e :: q → ∃ e', .resume t e' ∈ p := by
  intro as
  induction as with
  | nil =>
    intro w w' hr ha h1 h2 hk he
    cases he
    exact ⟨[], by simp, fun p e q h => by simp at h⟩
  | cons a as ih =>
    intro w w' hr ha h1 h2 hk he
    rw [run] at he
    split at he
    case h_2 => cases he
    rename_i w1 r hx
    obtain ⟨D, hg⟩ := hr.good
    obtain ⟨s1, s2, s3⟩ := ha.step hg htu hx h1 h2 (hk a (by simp))
    obtain ⟨new, hlog, hTs⟩ := hg.tstep (exec_step hx).2
    have hno : ∀ e, .resume u e ∉ new := by
      intro e hm
      have hm : .resume u e ∈ new.filter (·.about u) := List.mem_filter.2 ⟨hm, by simp [Obs.about]⟩
      have hT := hTs u
      generalize new.filter (·.about u) = obs at hT hm
      generalize w1.task u = r' at hT s2
      generalize w.task u = r0 at hT
      cases hT with
      | run => exact s2 rfl
      | cancelNow ha => exact (hk a (by simp)).2.2.2 ha
      | _ => simp at hm
    rcases s3 with s3 | ⟨s3, s4⟩
    · obtain ⟨new2, hl2, h⟩ := ih w1 w' (hr.exec hx) s3 s1 s2 (fun b hb => hk b (by simp [hb])) he
      refine ⟨new ++ new2, by rw [hl2, hlog, List.append_assoc], ?_⟩
      intro p e q hsp
      rcases split_append hsp with ⟨q', h5, -⟩ | ⟨p', h5, h6⟩
      · exact absurd (by rw [h5]; simp) (hno e)
      · obtain ⟨e', he'⟩ := h p' e q h6
        exact ⟨e', by rw [h5]; simp [he']⟩
    · have hrun : ∃ e', .resume t e' ∈ new := by
        obtain ⟨D', hg'⟩ := (hr.exec hx).good
        have h1 : (w1.task t).state = .running := (hg'.stk.run t).1 (by simp [s4])
        have h0 : (w.task t).state ≠ .running := by
          rw [ahead_sched hg ha]; simp
        have hT := hTs t
        have : ∃ e', .resume t e' ∈ new.filter (·.about t) := by
          generalize new.filter (·.about t) = obs at hT
          generalize w1.task t = r' at hT h1
          generalize w.task t = r0 at hT h0
          cases hT with
          | run => exact ⟨_, List.mem_singleton.2 rfl⟩
          | cancelNow => exact ⟨_, List.mem_append_right _ (List.mem_singleton.2 rfl)⟩
          | finish s o how hs he => have := coroEnd_done he; simp at h1; rw [h1] at this; cases this
          | _ => first | (exact absurd h1 h0) | (simp at h1)
        obtain ⟨e', h⟩ := this
        exact ⟨e', (List.mem_filter.1 h).1⟩
      obtain ⟨e', hrun⟩ := hrun
      obtain ⟨new2, hl2⟩ : ∃ new2, w'.log = w1.log ++ new2 := run_log (hr.exec hx) he
      refine ⟨new ++ new2, by rw [hl2, hlog, List.append_assoc], ?_⟩
      intro p e q hsp
      rcases split_append hsp with ⟨q', h5, -⟩ | ⟨p', h5, h6⟩
      · exact absurd (by rw [h5]; simp) (hno e)
      · exact ⟨e', by rw [h5]; simp [hrun]⟩

end Sched

/-- **C82.** A task that is ready to run while another one is still waiting for its trigger runs before
the other one does, whatever wakes the other one and whatever else happens, as long as neither of them
is killed or cancelled on the spot. -/
theorem C82_ready_before_waiting {w w' : World} {t u : Nat} {as : List Act} (hr : Reach w)
    (ht : (w.task t).state = .scheduled) (hu : (w.task u).state = .pending)
    (hk : ∀ a ∈ as, a ≠ .kill t ∧ a ≠ .cancelNow t ∧ a ≠ .kill u ∧ a ≠ .cancelNow u)
    (he : run w as = some w') :
    ∃ new, w'.log = w.log ++ new ∧
      ∀ p e q, new = p ++ .resume u e :: q → ∃ e', .resume t e' ∈ p := by
  have htu : t ≠ u := by rintro rfl; rw [ht] at hu; cases hu
  obtain ⟨D, hg⟩ := hr.good
  refine run_order htu as w w' hr (ahead_of (sched_queue hg ht) ?_) ?_ ?_ hk he
  · intro h; rw [queue_sched hg h] at hu; cases hu
  · rw [hu]; simp
  · rw [hu]; simp

/-- **C82.** A task that is started with `start_soon` runs after all tasks that were ready then. -/
theorem C82_ready_before_started {w w1 w' : World} {t u : Nat} {r : Res} {as : List Act}
    (hr : Reach w) (ht : (w.task t).state = .scheduled) (hu : (w.task u).state = .unstarted)
    (h1 : exec w (.startSoon u) = some (w1, r))
    (hk : ∀ a ∈ as, a ≠ .kill t ∧ a ≠ .cancelNow t ∧ a ≠ .kill u ∧ a ≠ .cancelNow u)
    (he : run w1 as = some w') :
    ∃ new, w'.log = w1.log ++ new ∧
      ∀ p e q, new = p ++ .resume u e :: q → ∃ e', .resume t e' ∈ p := by
  have htu : t ≠ u := by rintro rfl; rw [ht] at hu; cases hu
  obtain ⟨D, hg⟩ := hr.good
  have hah : Ahead t u (loopQueue w) := ahead_of (sched_queue hg ht) fun h => by
    rw [queue_sched hg h] at hu; cases hu
  have hw1 : w1 = (scheduleResume w u none).addLog (.start u) := by
    unfold exec at h1
    split at h1
    · cases h1
    · cases hi : w.inside <;> simp [hi, startSoon, hu] at h1
      exact h1.1.symm
  subst hw1
  have hq : loopQueue ((scheduleResume w u none).addLog (.start u)) = loopQueue w ++ [u] := by
    rw [← loopQueue_sched w u none]; rfl
  refine run_order htu as _ w' (hr.exec h1) (by rw [hq]; exact hah.append) ?_ ?_ hk he <;>
    simp [World.addLog, scheduleResume, upd_self]

/-- **C82.** Tasks that are woken by the same firing of a trigger run in the order in which they
started to wait for it. -/
theorem C82_woken_in_order {w w1 w' : World} {t u n : Nat} {r : Res} {as : List Act} {a b : List Nat}
    (hr : Reach w) (h1 : exec w (.fire n) = some (w1, r))
    (hw : waiters w (.gpi n) = a ++ t :: b) (hu : u ∈ b) (ha : u ∉ a) (htu : t ≠ u)
    (hk : ∀ a ∈ as, a ≠ .kill t ∧ a ≠ .cancelNow t ∧ a ≠ .kill u ∧ a ≠ .cancelNow u)
    (he : run w1 as = some w') :
    ∃ new, w'.log = w1.log ++ new ∧
      ∀ p e q, new = p ++ .resume u e :: q → ∃ e', .resume t e' ∈ p := by
  have hsc := (C32_fire_resumes_normally h1 (t := u) (by rw [hw]; simp [hu])).1
  refine run_order htu as _ w' (hr.exec h1) ?_ (by rw [hsc]; simp) (by rw [hsc]; simp) hk he
  have hout : loopQueue w = [] := by
    have : w.inside = false := by
      cases hi : w.inside with
      | false => rfl
      | true =>
        simp only [exec, hi] at h1
        split at h1
        · cases h1
        · split at h1
          · simp [execCoro] at h1
          · cases h1
          · cases h1
    unfold loopQueue
    rw [(outside_empty hr this).2]; rfl
  rw [(C32_fire_wakes_all_in_order h1).1, hout, hw, List.nil_append]
  have : Ahead t u (a ++ [t]) := ahead_of (by simp) (by simp [ha, Ne.symm htu])
  have := this.append (l := b)
  simpa using this

/-! ### `ClockCycles` -/

/-- **C26.** A `ClockCycles` that is awaited by a task of its own returns itself, exactly when the
edge has fired the requested number of times since it started, and during that firing. A number that
is not positive is no wait at all. -/
theorem C26_counts_edges {w : World} {t m v v' : Nat} {k : Int} {s : TState} {pre post : List Sched.Obs}
    (hr : Reach w) (hf : Follows (clockCycles (.gpi m) k v) t w.log)
    (hl : w.log = pre ++ .done t s (.value v') :: post) :
    v' = v ∧ (fires m (sinceStart t pre) : Int) = max k 0 ∧ (0 < k → lastFired pre = some m) := by
  obtain ⟨h1, h2, h3⟩ := (cycles hr hf).2 pre post s v' hl
  refine ⟨h1, ?_, fun hk => h3 (by omega)⟩
  have : fires m (sinceStart t pre) = k.toNat := h2
  rw [this]; omega

/-- **C26.** It is not late: whenever control is back with the simulator and the task has not ended,
fewer edges than requested have fired. -/
theorem C26_not_late {w : World} {t m v : Nat} {k : Int}
    (hr : Reach w) (hf : Follows (clockCycles (.gpi m) k v) t w.log) (ho : w.inside = false)
    (hs : resumes t w.log ≠ []) (hd : w.done t = false) :
    (fires m (sinceStart t w.log) : Int) < k := by
  obtain ⟨D, hg⟩ := hr.good
  obtain ⟨o1, o2⟩ := outside_empty hr ho
  rcases (cycles hr hf).1 with ⟨-, h⟩ | ⟨h, -⟩ | ⟨h, -⟩ | ⟨-, -, h1, h2, -⟩ | h
  · exact absurd h hs
  · obtain ⟨e, h1, -⟩ := (hg.inv.ok t (by simp)).sched h
    rw [o2] at h1; cases h1
  · have := (hg.stk.run t).2 h
    rw [o1] at this; simp at this
  · have : fires m (sinceStart t w.log) = count m t w.log := rfl
    omega
  · unfold World.done at hd; rw [h] at hd; cases hd

/-- **C26.** Which edges are counted: giving both the deprecated `rising` and `edge_type` is an error,
otherwise the edge is the one asked for, rising by default. -/
theorem C26_edge_type :
    (∀ edge rising, edgeType edge rising = none ↔ edge ≠ none ∧ rising ≠ none) ∧
    (∀ e, edgeType (some (.cls e)) none = some e) ∧
    (∀ b, edgeType none (some b) = some (if b then .rising else .falling)) ∧
    (∀ b, edgeType (some (.bool b)) none = edgeType none (some b)) ∧
    edgeType none none = some .rising := by
  refine ⟨?_, fun _ => rfl, fun b => by cases b <;> rfl, fun b => by cases b <;> rfl, rfl⟩
  intro edge rising
  rcases edge with _ | (_ | (_ | _)) <;> rcases rising with _ | (_ | _) <;> simp [edgeType]

/-! ### `with_timeout` -/

namespace Sched

/-- A task that ended without an exception and was not killed ended with a value. -/
theorem ended_value {w : World} {t : Nat} {st : TState} {o : Outcome} (hr : Reach w)
    (hl : .done t st o ∈ w.log) (hf : WaitSpec.failed w t = false)
    (ha : (w.task t).outcome ≠ some .noneKilled) : ∃ v, o = .value v ∧ w.result t = .returns v := by
  obtain ⟨d1, d2, d3⟩ := done_entry hr hl
  have hd : w.done t = true := by unfold World.done; rw [d1]; exact d3
  unfold WaitSpec.failed at hf
  rcases C29_queries_agree hr t with ⟨h, -⟩ | ⟨-, -, h, -⟩ | ⟨-, -, h, -⟩ | ⟨-, -, e, -, h, -⟩
  · rw [hd] at h; cases h
  · rw [h] at hf; cases hf
  · unfold World.result at h
    rw [d2] at ha
    rw [d1, d2] at h
    unfold World.result
    rw [d1, d2]
    cases st <;> cases o <;> simp_all [raiseOutcome]
  · rw [h] at hf; cases hf

end Sched

/-- **C67.** `with_timeout` on an awaitable run by task `t1`, with a timer of its own awaited by task
`t0`.  When the call is over, one of three things has happened:
  * the awaitable ended before the timer fired, and its result or exception is what the caller gets;
  * the timer fired before the awaitable ended, and the caller gets `SimTimeoutError`;
  * the wait for the timer itself ended with an exception, and the caller gets that. -/
theorem C67_result_or_timeout {s : WS} {i : Option Nat} {t0 t1 n v : Nat} (h : Wait.Reach s)
    (hm : s.mode = .firstCompleted) (hw : s.waiters = [t0, t1]) (hp : s.phase = .returned i)
    (hf : Follows (loop (.gpi n) 1 v) t0 s.w.log) (hpr : Private n t0 s.w.log) :
    (∃ pre post st o, s.w.log = pre ++ .done t1 st o :: post ∧
      .fire n ∉ sinceStart t0 pre ∧ ¬ HasEnded t0 pre ∧ withTimeout s = some (answer (s.w.result t1))) ∨
    (∃ pre post st o, s.w.log = pre ++ .done t0 st o :: post ∧
      .fire n ∈ sinceStart t0 pre ∧ ¬ HasEnded t1 pre ∧ withTimeout s = some .simTimeoutError) ∨
    (∃ pre post st o e, s.w.log = pre ++ .done t0 st o :: post ∧ ¬ HasEnded t1 pre ∧
      s.w.result t0 = .raises e ∧ withTimeout s = some (.raises e)) := by
  have hr := h.inv.live.calm.reach
  have hne : t0 ≠ t1 := by
    have := h.inv.data.nd
    rw [hw] at this; simpa using this
  have hpi : s.phase ≠ .idle := by rw [hp]; simp
  obtain ⟨j, t, h1, h2, h3, h4⟩ := C41_first_completed h hm hp
  obtain ⟨hmem, pre, st, o, post, hl, hno⟩ := Wait.order_head h2
  rw [hw] at h1 hmem hno
  have hcase : (j = 0 ∧ t = t0) ∨ (j = 1 ∧ t = t1) := by
    match j, h1 with
    | 0, h1 => simp at h1; exact Or.inl ⟨rfl, h1.symm⟩
    | 1, h1 => simp at h1; exact Or.inr ⟨rfl, h1.symm⟩
    | j + 2, h1 => simp at h1
  rcases hcase with ⟨rfl, rfl⟩ | ⟨rfl, rfl⟩
  · have hpair := h.pair hpi t (by rw [hw]; simp) t1 (by rw [hw]; simp)
    have hdone : .done t st o ∈ s.w.log := by rw [hl]; simp
    have hd := h4 t (by rw [hw]; simp)
    have hal := hpair.alive (by unfold World.done at hd; exact hd)
    right
    have hq := C29_queries_agree hr t
    rcases hq with ⟨q, -⟩ | ⟨-, -, q, -⟩ | ⟨-, -, q, -⟩ | ⟨-, -, e, -, q, -⟩
    · rw [hd] at q; cases q
    · right
      refine ⟨pre, post, st, o, .cancelled, hl, hno t1 (by simp), q, ?_⟩
      simp [withTimeout, hp, h3, q]
    · have hnf : WaitSpec.failed s.w t = false := by
        unfold WaitSpec.failed
        rcases q with ⟨v', q⟩ | q <;> rw [q]
      obtain ⟨v', rfl, q⟩ := ended_value hr hdone hnf hal
      left
      obtain ⟨c1, c2, -⟩ := (cycles hr hf).2 pre post st v' hl
      refine ⟨pre, post, st, _, hl, ?_, hno t1 (by simp), ?_⟩
      · have : 0 < (sinceStart t pre).count (.fire n) := by
          have : (sinceStart t pre).count (.fire n) = 1 := c2
          omega
        exact List.count_pos_iff.1 this
      · simp [withTimeout, hp, h3, q]
    · right
      refine ⟨pre, post, st, o, e, hl, hno t1 (by simp), q, ?_⟩
      simp [withTimeout, hp, h3, q]
  · have hpair := h.pair hpi t0 (by rw [hw]; simp) t (by rw [hw]; simp)
    left
    refine ⟨pre, post, st, o, hl, ?_, hno t0 (by simp), ?_⟩
    · intro hfi
      obtain ⟨s', o', hx⟩ := (race hpair hne hf hpr).2 pre post st o hl hfi
      exact hno t0 (by simp) ⟨s', o', hx⟩
    · unfold withTimeout
      rw [hp, h3]
      cases hq : s.w.result t <;> rfl

/-- **C67.** When `with_timeout` is over, however it ended, its timer is not armed in
the simulator. -/
theorem C67_timer_removed {s : WS} {t0 t1 n : Nat} (h : Wait.Reach s) (hw : s.waiters = [t0, t1])
    (hp : (∃ i, s.phase = .returned i) ∨ ∃ e, s.phase = .raised e) (hpr : Private n t0 s.w.log) :
    s.w.primed n = false := by
  cases hx : s.w.primed n with
  | false => rfl
  | true =>
    have hr := h.inv.live.calm.reach
    obtain ⟨t, h1, h2⟩ := armed_for hr hx
    obtain rfl := hpr t h2
    have : s.w.done t = true := by
      rcases hp with ⟨i, hp⟩ | ⟨e, hp⟩
      · exact C43_returns_only_when_done h hp t (by rw [hw]; simp)
      · exact (C43_raises_only_cancelled h hp).2.2 t (by rw [hw]; simp)
    unfold World.done at this
    rw [h1] at this; cases this

/-- **C67.** On a timeout the awaitable has been cancelled. -/
theorem C67_timeout_cancels {s : WS} {i : Option Nat} {t0 t1 : Nat} (h : Wait.Reach s)
    (hm : s.mode = .firstCompleted) (hw : s.waiters = [t0, t1]) (hp : s.phase = .returned i)
    (ht : withTimeout s = some .simTimeoutError) : .cancel t1 ∈ s.log := by
  have hne : t0 ≠ t1 := by
    have := h.inv.data.nd
    rw [hw] at this; simpa using this
  have hhead : (WaitSpec.order s.w s.waiters).head? = some t0 := by
    obtain ⟨j, t, h1, h2, h3, -⟩ := C41_first_completed h hm hp
    rw [h2]
    rw [hw] at h1
    match j, h1 with
    | 0, h1 => exact h1.symm
    | 1, h1 =>
      exfalso
      unfold withTimeout at ht
      rw [hp, h3] at ht
      cases hq : s.w.result t <;> rw [hq] at ht <;> simp at ht
    | j + 2, h1 => simp at h1
  rw [((h.inv).order_done (h.inv.data.returned i hp).1).1] at hhead
  have hin : .ended t0 ∈ s.log := by
    have := List.mem_of_mem_head? hhead
    have := Wait.mem_announced.1 this
    simpa [WaitSpec.endedIn] using this
  rcases C43_cancels_exactly_when h with ⟨h1, -⟩ | ⟨pre, x, post, h1, h2, h3, h4⟩
  · have := List.any_eq_false.1 h1 _ hin
    simp [WaitSpec.met, hm] at this
  · have hpre : pre = [] := by
      cases pre with
      | nil => rfl
      | cons y l =>
        exfalso
        have := List.any_eq_false.1 h2 y (by simp)
        cases y with
        | ended t => simp [WaitSpec.met, hm] at this
        | thrown e => simp [WaitSpec.met] at this
        | cancel t => exact h4 t (by simp)
    subst hpre
    rw [List.nil_append] at h1
    have hx : WaitSpec.endedIn [x] t1 = false := by
      cases x with
      | ended t =>
        rw [h1] at hhead
        simp [Wait.announced] at hhead
        simp [WaitSpec.endedIn, hhead, Ne.symm hne]
      | thrown e => simp [WaitSpec.endedIn]
      | cancel t => simp [WaitSpec.endedIn]
    rw [h1, hw]
    simp only [List.mem_append, List.mem_map]
    left; right
    exact ⟨t1, List.mem_filter.2 ⟨by simp, by simp [hx]⟩, rfl⟩

/-! ### `Combine` and `First` -/

/-- **C68.** `Combine`: the caller gets the object only when every one of the awaitables has completed
without failing; otherwise it gets the exception of the one that failed first. Either way none of the
tasks is left. -/
theorem C68_combine {s : WS} {i : Option Nat} (h : Wait.Reach s) (hm : s.mode = combineMode)
    (hp : s.phase = .returned i) :
    (∀ u ∈ s.waiters, s.w.done u = true) ∧
    (((∀ u ∈ s.waiters, WaitSpec.failed s.w u = false) ∧ combineResult s = some .self) ∨
      ∃ t e, (WaitSpec.order s.w s.waiters).find? (WaitSpec.failed s.w) = some t ∧
        s.w.result t = .raises e ∧ combineResult s = some (.raises e)) := by
  obtain ⟨h1, h2⟩ := C42_results_in_order h hm hp
  refine ⟨h1, ?_⟩
  rcases h2 with ⟨h2, h3⟩ | ⟨t, e, h2, h3, h4⟩
  · left
    refine ⟨h2, ?_⟩
    unfold Wait.gatherResult at h3
    rw [hp] at h3
    unfold combineResult
    rw [hp]
    cases i with
    | none => rfl
    | some i =>
      simp only at h3
      cases hx : s.waiters[i]? <;> rw [hx] at h3 <;> simp at h3
  · right
    refine ⟨t, e, h2, h3, ?_⟩
    unfold Wait.gatherResult at h4
    rw [hp] at h4
    unfold combineResult
    rw [hp]
    cases i with
    | none => simp at h4
    | some i =>
      simp only at h4 ⊢
      cases hx : s.waiters[i]? with
      | none => rw [hx] at h4; simp at h4
      | some t' =>
        rw [hx] at h4
        simp at h4
        simp [h4, answer]

/-- **C68.** When `Combine` gives the object, every trigger combined has fired while it was awaited. -/
theorem C68_combine_all_fired {s : WS} {i : Option Nat} {t v : Nat} {g : Trig} (h : Wait.Reach s)
    (hm : s.mode = combineMode) (hp : s.phase = .returned i) (hc : combineResult s = some .self)
    (ht : t ∈ s.waiters) (hf : Follows (loop g 1 v) t s.w.log) :
    ∃ before since after, s.w.log = before ++ .suspend t g :: (since ++ .resume t none :: after) ∧
      Still t since ∧ Happened g before since := by
  have hr := h.inv.live.calm.reach
  obtain ⟨h1, h2⟩ := C68_combine h hm hp
  have hnf : WaitSpec.failed s.w t = false := by
    rcases h2 with ⟨h2, -⟩ | ⟨_, e, -, -, h2⟩
    · exact h2 t ht
    · rw [hc] at h2; cases h2
  have hd := h1 t ht
  unfold World.done at hd
  obtain ⟨st, o, hlog⟩ := done_logged hr hd
  have hal := (h.pair (by rw [hp]; simp) t ht t ht).alive hd
  obtain ⟨v', rfl, -⟩ := ended_value hr hlog hnf hal
  obtain ⟨pre, post, hl⟩ := List.append_of_mem hlog
  obtain ⟨-, p1, p2, p3, h3, h4, h5⟩ := awaited hr hf hl
  exact ⟨p1, p2, p3 ++ .done t st (.value v') :: post, by rw [hl, h3]; simp, still_exec.2 h4, h5⟩

/-- **C68.** `First` gives the result, or the exception, of the awaitable that completed first. -/
theorem C68_first {s : WS} {i : Option Nat} (h : Wait.Reach s) (hm : s.mode = firstMode)
    (hp : s.phase = .returned i) :
    ∃ t, (WaitSpec.order s.w s.waiters).head? = some t ∧
      firstResult s = some (answer (s.w.result t)) ∧ ∀ u ∈ s.waiters, s.w.done u = true := by
  obtain ⟨j, t, h1, h2, h3, h4⟩ := C41_first_completed h hm hp
  refine ⟨t, h2, ?_, h4⟩
  unfold Wait.selectResult at h3
  unfold firstResult
  rw [hp] at h3 ⊢
  cases i with
  | none => simp at h3
  | some i =>
    simp only at h3 ⊢
    cases hx : s.waiters[i]? with
    | none => rw [hx] at h3; simp at h3
    | some t' => rw [hx] at h3; simp at h3; simp [h3]

/-- **C68.** An empty `Combine` does not wait for anything. -/
theorem C68_empty_combine {w : World} {t v : Nat} (hr : Reach w)
    (hf : Follows (combineEmpty v) t w.log) : (w.task t).state ≠ .pending := by
  intro hp
  obtain ⟨D, hg⟩ := hr.good
  obtain ⟨g, k, h1, h2⟩ := (hg.inv.ok t (by simp)).pend hp
  obtain ⟨pre, post, hl⟩ := List.append_of_mem (tcb_logged hr h1)
  obtain ⟨rfl, -⟩ := loop_await ((hf pre _ post hl).1 g rfl)
  have := hg.trg.trig (.null 0)
  simp only [TrigOk] at this
  rw [this] at h2; cases h2

/-- **C68.** `First()` without arguments is a `ValueError`; an argument that cannot be awaited is a
`TypeError` for both; everything else is accepted. -/
theorem C68_arguments (as : List Arg) :
    (firstNew as = some .valueError ↔ as = []) ∧
    (firstNew as = some .typeError ↔ .other ∈ as) ∧
    (combineNew as = some .typeError ↔ .other ∈ as) ∧
    combineNew as ≠ some .valueError := by
  unfold firstNew combineNew
  by_cases h : as = []
  · subst h; simp
  · have : as.any (· = .other) = true ↔ Arg.other ∈ as := by simp
    cases hx : as.any (· = .other) <;> simp [h, hx] at this ⊢ <;> simpa using this

/-! ### Examples -/

namespace Ext

/-- Checks `Follows`. -/
def followsB (p : Prog) (t : Nat) : List (Option Exc) → List Sched.Obs → Bool
  | _, [] => true
  | R, o :: l =>
    (match o with
      | .suspend u g => u != t || decide (p R = .await g)
      | .done u _ (.value v) => u != t || decide (p R = .ret v)
      | .suspendBad u => u != t
      | _ => true) && followsB p t (R ++ resumes t [o]) l

theorem followsB_sound {p : Prog} {t : Nat} : ∀ {l : List Sched.Obs} {R : List (Option Exc)},
    followsB p t R l = true → ∀ pre o post, l = pre ++ o :: post →
      (∀ g, o = .suspend t g → p (R ++ resumes t pre) = .await g) ∧
      (∀ s v, o = .done t s (.value v) → p (R ++ resumes t pre) = .ret v) ∧ o ≠ .suspendBad t
  | [], R, _, pre, o, post, hl => by simp at hl
  | x :: l, R, h, pre, o, post, hl => by
    simp only [followsB, Bool.and_eq_true] at h
    cases pre with
    | nil =>
      simp only [List.nil_append, List.cons.injEq] at hl
      obtain ⟨rfl, rfl⟩ := hl
      refine ⟨?_, ?_, ?_⟩
      · rintro g rfl; simpa [resumes] using h.1
      · rintro s v rfl; simpa [resumes] using h.1
      · rintro rfl; simp at h
    | cons y pre =>
      simp only [List.cons_append, List.cons.injEq] at hl
      obtain ⟨rfl, hl⟩ := hl
      have := followsB_sound h.2 pre o post hl
      have e : R ++ resumes t (x :: pre) = R ++ resumes t [x] ++ resumes t pre := by
        rw [List.append_assoc, ← resumes_append]; rfl
      rw [e]; exact this

theorem follows_of {p : Prog} {t : Nat} {l : List Sched.Obs} (h : followsB p t [] l = true) :
    Follows p t l := by
  intro pre o post hl
  have := followsB_sound h pre o post hl
  simpa using this

/-- Checks `Private`. -/
def privateB (m t : Nat) (l : List Sched.Obs) : Bool :=
  l.all fun
    | .suspend x g => decide (g = .gpi m → x = t)
    | _ => true

theorem private_of {m t : Nat} {l : List Sched.Obs} (h : privateB m t l = true) : Private m t l := by
  intro x hx
  have := List.all_eq_true.1 h _ hx
  simpa using this

/-- `with_timeout` on an awaitable that waits for trigger 2, with timer 1, which fires first. -/
def timingOut : List Wait.WAct :=
  Wait.begin_ .firstCompleted ++ [.sched .pop, .sched (.await (.gpi 2) false), .sched .exit,
    .sched (.fire 1), .sched .pop, .sched (.ret 9)] ++ Wait.over ++
  [.sched .pop, .sched (.raise .cancelled)] ++ Wait.over ++ [.sched .pop]

/-- The same, but trigger 2 fires first. -/
def inTime : List Wait.WAct :=
  Wait.begin_ .firstCompleted ++ [.sched .pop, .sched (.await (.gpi 2) false), .sched .exit,
    .sched (.fire 2), .sched .pop, .sched (.ret 5)] ++ Wait.over ++
  [.sched .pop, .sched (.raise .cancelled)] ++ Wait.over ++ [.sched .pop]

/-- `Combine` of two triggers, both of which fire. -/
def combining : List Wait.WAct :=
  Wait.begin_ .firstException ++ [.sched .pop, .sched (.await (.gpi 2) false), .sched .exit,
    .sched (.fire 2), .sched .pop, .sched (.ret 5)] ++ Wait.over ++ [.sched .exit, .sched (.fire 1),
    .sched .pop, .sched (.ret 9)] ++ Wait.over ++ [.sched .pop]

end Ext

/-- A timeout, in a state that meets the hypotheses of the C67 theorems. -/
example : ∃ s, Wait.Reach s ∧ s.mode = .firstCompleted ∧ s.waiters = [1, 3] ∧
    s.phase = .returned (some 0) ∧ Follows (loop (.gpi 1) 1 9) 1 s.w.log ∧ Private 1 1 s.w.log ∧
    withTimeout s = some .simTimeoutError :=
  ⟨_, Wait.reach_of (as := timingOut) (by decide +kernel), by decide +kernel, by decide +kernel,
    by decide +kernel, follows_of (by decide +kernel), private_of (by decide +kernel), by decide +kernel⟩

/-- A result in time. -/
example : ∃ s, Wait.Reach s ∧ s.mode = .firstCompleted ∧ s.waiters = [1, 3] ∧
    s.phase = .returned (some 1) ∧ Follows (loop (.gpi 1) 1 9) 1 s.w.log ∧ Private 1 1 s.w.log ∧
    withTimeout s = some (.value (.returns 5)) :=
  ⟨_, Wait.reach_of (as := inTime) (by decide +kernel), by decide +kernel, by decide +kernel,
    by decide +kernel, follows_of (by decide +kernel), private_of (by decide +kernel), by decide +kernel⟩

/-- `Combine` of two triggers and `First` of two. -/
example : ∃ s, Wait.Reach s ∧ s.mode = combineMode ∧ s.phase = .returned none ∧
    combineResult s = some .self ∧ 1 ∈ s.waiters ∧ Follows (loop (.gpi 1) 1 9) 1 s.w.log :=
  ⟨_, Wait.reach_of (as := combining) (by decide +kernel), by decide +kernel, by decide +kernel,
    by decide +kernel, by decide +kernel, follows_of (by decide +kernel)⟩

example : ∃ s, Wait.Reach s ∧ s.mode = firstMode ∧ s.phase = .returned (some 1) ∧
    firstResult s = some (.value (.returns 5)) :=
  ⟨_, Wait.reach_of (as := inTime) (by decide +kernel), by decide +kernel, by decide +kernel,
    by decide +kernel⟩

/-- An empty `Combine`, done. -/
example : ∃ w, Reach w ∧ Follows (combineEmpty 4) 0 w.log ∧ w.result 0 = .returns 4 :=
  ⟨_, ⟨[.enter, .startSoon 0, .pop, .await (.null 0) false, .pop, .ret 4], rfl⟩,
    follows_of (by decide +kernel), by decide +kernel⟩

/-- Two cycles of trigger 3, while another one fires in between. -/
def Ext.twoCycles : List Act :=
  [.enter, .startSoon 0, .startSoon 1, .pop, .await (.gpi 3) false, .pop, .await (.gpi 4) false, .exit,
   .fire 3, .pop, .await (.gpi 3) false, .exit, .fire 4, .pop, .ret 0]

example : ∃ w, Reach w ∧ Follows (clockCycles (.gpi 3) 2 8) 0 w.log ∧ resumes 0 w.log ≠ [] ∧
    w.inside = false ∧ w.done 0 = false ∧ fires 3 (sinceStart 0 w.log) = 1 :=
  ⟨_, ⟨twoCycles.take 12, rfl⟩, follows_of (by decide +kernel), by decide +kernel, by decide +kernel,
    by decide +kernel, by decide +kernel⟩

example : ∃ w pre s, Reach w ∧ Follows (clockCycles (.gpi 3) 2 8) 0 w.log ∧
    w.log = pre ++ .done 0 s (.value 8) :: [] ∧ fires 3 (sinceStart 0 pre) = 2 :=
  ⟨_, _, _, ⟨twoCycles ++ [.cbStep, .exit, .fire 3, .pop, .ret 8], rfl⟩, follows_of (by decide +kernel), by rfl,
    by decide +kernel⟩

/-- A ready task and a waiting one, then both run. -/
example : ∃ w w' as, Reach w ∧ (w.task 1).state = .scheduled ∧ (w.task 0).state = .pending ∧
    (∀ a ∈ as, a ≠ .kill 1 ∧ a ≠ .cancelNow 1 ∧ a ≠ .kill 0 ∧ a ≠ .cancelNow 0) ∧
    run w as = some w' ∧ .resume 0 (some .cancelled) ∈ w'.log :=
  ⟨_, _, [.pop, .cancel 0, .await (.null 0) false, .pop], ⟨[.enter, .startSoon 0, .startSoon 1, .pop,
    .await (.gpi 3) false], rfl⟩, by decide +kernel, by decide +kernel, by simp, by rfl, by decide +kernel⟩

/-- A task started while another one is ready. -/
example : ∃ w w1 w' r as, Reach w ∧ (w.task 0).state = .scheduled ∧ (w.task 1).state = .unstarted ∧
    exec w (.startSoon 1) = some (w1, r) ∧
    (∀ a ∈ as, a ≠ .kill 0 ∧ a ≠ .cancelNow 0 ∧ a ≠ .kill 1 ∧ a ≠ .cancelNow 1) ∧
    run w1 as = some w' ∧ .resume 1 none ∈ w'.log :=
  ⟨_, _, _, _, [.pop, .ret 1, .cbStep, .pop], ⟨[.enter, .startSoon 0], rfl⟩, by decide +kernel,
    by decide +kernel, by rfl, by simp, by rfl, by decide +kernel⟩

/-- Two tasks woken together. -/
example : ∃ w w1 w' r as, Reach w ∧ exec w (.fire 3) = some (w1, r) ∧ waiters w (.gpi 3) = [0, 1] ∧
    (∀ a ∈ as, a ≠ .kill 0 ∧ a ≠ .cancelNow 0 ∧ a ≠ .kill 1 ∧ a ≠ .cancelNow 1) ∧
    run w1 as = some w' ∧ .resume 1 none ∈ w'.log :=
  ⟨_, _, _, _, [.pop, .ret 1, .cbStep, .pop], ⟨[.enter, .startSoon 0, .startSoon 1, .pop,
    .await (.gpi 3) false, .pop, .await (.gpi 3) false, .exit], rfl⟩, by rfl,
    by decide +kernel, by simp, by rfl, by decide +kernel⟩

/-- A task that was waiting for an event and went on. -/
example : ∃ w, Reach w ∧
    w.log = [.start 0, .start 1, .resume 0 none] ++ .suspend 0 (.event 2) ::
      ([.resume 1 none, .setE 2, .done 1 .finished (.value 1)] ++ .resume 0 none :: []) ∧
    Still 0 [.resume 1 none, .setE 2, .done 1 .finished (.value 1)] :=
  ⟨_, ⟨[.enter, .startSoon 0, .startSoon 1, .pop, .await (.event 2) false, .pop, .setE 2,
    .ret 1, .cbStep, .pop], rfl⟩, by rfl, still_exec.2 (by rfl)⟩

end Verif
