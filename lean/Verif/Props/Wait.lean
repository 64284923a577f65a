import Verif.Lemmas.WaitGentle
import Verif.Spec.Wait
import Verif.Props.SchedTask

/-! C41–C43: `select`, `gather` and `wait`. -/

namespace Verif

open Sched Wait

namespace Wait

theorem order_eq (w : World) (ws : List Nat) : WaitSpec.order w ws = (ends w.log).filter (· ∈ ws) := by
  unfold WaitSpec.order ends
  induction w.log with
  | nil => rfl
  | cons o l ih =>
    cases o <;> simp only [List.filterMap_cons, ih]
    rename_i t _ _
    by_cases h : t ∈ ws <;> simp [h, List.filter_cons]

theorem decides_failed {w : World} (hr : Sched.Reach w) {t : Nat} (hd : w.done t = true) :
    decides .firstException w t = WaitSpec.failed w t := by
  unfold decides WaitSpec.failed
  rcases C29_queries_agree hr t with ⟨h1, -⟩ | ⟨-, h2, h3, h4⟩ | ⟨-, h2, h3, h4⟩ | ⟨-, h2, e, h3, h4, h5⟩
  · rw [hd] at h1; cases h1
  · simp [h2, h3]
  · rw [h2, h4]
    rcases h3 with ⟨v, h3⟩ | h3 <;> simp [h3]
  · simp [h2, h4, h5]

/-- When all ends have been announced. -/
theorem WInv.order_done {s : WS} (h : WInv s) (hr : s.remaining = []) :
    WaitSpec.order s.w s.waiters = announced s.log ∧ ∀ t ∈ s.waiters, t ∈ announced s.log := by
  have hall : ∀ t ∈ s.waiters, t ∈ announced s.log := by
    intro t ht
    rw [h.data.rem] at hr
    have := (List.filter_eq_nil_iff.1 hr) t ht
    simpa using this
  refine ⟨?_, hall⟩
  rw [order_eq, h.live.own.order]
  have : justEnded s.waiters s.w = [] := by
    unfold justEnded
    split
    · rename_i t how rest hst
      split
      · rename_i ht
        exact absurd (by rw [hst]; simp) (h.live.own.fin0 t (hall t ht) how)
      · rfl
    · rfl
  rw [this, List.append_nil]

theorem WInv.all_done {s : WS} (h : WInv s) (hr : s.remaining = []) :
    ∀ t ∈ s.waiters, s.w.done t = true :=
  fun t ht => Live.annDone h.live t ((h.order_done hr).2 t ht)

theorem WInv.decider {s : WS} (h : WInv s) (hr : s.remaining = []) :
    s.first = WaitSpec.decider s.mode s.w s.waiters := by
  rw [h.data.first]
  unfold WaitSpec.decider
  rw [(h.order_done hr).1]
  cases s.mode
  · show _ = (announced s.log).head?
    cases announced s.log <;> rfl
  · exact find_congr fun t ht => decides_failed h.live.calm.reach (Live.annDone h.live t ht)
  · exact List.find?_eq_none.2 (by simp [decides])

theorem getElem?_idxOf {ws : List Nat} {t : Nat} (h : t ∈ ws) : ws[ws.idxOf t]? = some t := by
  have hl := List.idxOf_lt_length_of_mem h
  rw [List.getElem?_eq_getElem hl]
  simp

theorem position_eq {ws : List Nat} {t : Nat} (h : t ∈ ws) :
    WaitSpec.position ws t = some (ws.idxOf t) := by
  unfold WaitSpec.position List.idxOf
  rw [List.findIdx?_eq_some_iff_findIdx_eq]
  exact ⟨List.findIdx_lt_length_of_exists ⟨t, h, by simp⟩, rfl⟩

end Wait

/-- **C43.** `wait` returns to its caller only when every one of its tasks is done. -/
theorem C43_returns_only_when_done {s : WS} {idx : Option Nat} (h : Wait.Reach s)
    (hp : s.phase = .returned idx) : ∀ t ∈ s.waiters, s.w.done t = true :=
  h.inv.all_done (h.inv.data.returned idx hp).1

/-- **C43.** The index `wait` returns: the position of the awaitable that completed first, of the first
one that failed, or none, depending on the mode. -/
theorem C43_index {s : WS} {idx : Option Nat} (h : Wait.Reach s) (hp : s.phase = .returned idx) :
    idx = (WaitSpec.decider s.mode s.w s.waiters).bind (WaitSpec.position s.waiters) := by
  obtain ⟨h1, h2⟩ := h.inv.data.returned idx hp
  rw [h2, ← h.inv.decider h1]
  cases hf : s.first with
  | none => rfl
  | some t =>
    rw [h.inv.data.first] at hf
    have := List.mem_of_find?_eq_some hf
    simp [position_eq (h.inv.live.own.sub t this)]

/-- **C43.** The only exception `wait` lets through to its caller is the caller's own cancellation, and
then too every one of its tasks is done. -/
theorem C43_raises_only_cancelled {s : WS} {e : Exc} (h : Wait.Reach s) (hp : s.phase = .raised e) :
    e = .cancelled ∧ .thrown (some .cancelled) ∈ s.log ∧ ∀ t ∈ s.waiters, s.w.done t = true := by
  obtain ⟨h1, h2, -, h3⟩ := h.inv.data.raised e hp
  exact ⟨h2, h3, h.inv.all_done h1⟩


/-! ### Cancelling what is left -/

namespace Wait

theorem mem_announced {log : List Obs} {t : Nat} : t ∈ announced log ↔ WaitSpec.endedIn log t = true := by
  unfold announced WaitSpec.endedIn
  simp only [List.mem_filterMap, List.contains_iff_mem]
  constructor
  · rintro ⟨o, h1, h2⟩
    cases o <;> simp at h2
    subst h2; exact h1
  · intro h
    exact ⟨_, h, rfl⟩

theorem left_eq (ws : List Nat) (log : List Obs) :
    ws.filter (· ∉ announced log) = ws.filter (fun t => !WaitSpec.endedIn log t) := by
  congr 1
  funext t
  by_cases h : t ∈ announced log
  · simp [h, mem_announced.1 h]
  · have : WaitSpec.endedIn log t = false := by
      cases hx : WaitSpec.endedIn log t with
      | false => rfl
      | true => exact absurd (mem_announced.2 hx) h
    simp [h, this]

theorem met_eq {m : Mode} {w : World} {log : List Obs} (hr : Sched.Reach w)
    (hd : ∀ t ∈ announced log, w.done t = true) : met m w log = log.any (WaitSpec.met m w) := by
  induction log with
  | nil => rfl
  | cons o l ih =>
    have e : announced (o :: l) = announced [o] ++ announced l := announced_append [o] l
    have e2 : met m w (o :: l) = (met m w [o] || met m w l) := met_append m w [o] l
    rw [e] at hd
    rw [e2, ih (fun t ht => hd t (by simp [ht])), List.any_cons]
    congr 1
    cases o with
    | ended t =>
      cases m with
      | firstException =>
        have := decides_failed hr (hd t (by simp))
        simp [met, WaitSpec.met, this]
      | _ => simp [met, WaitSpec.met, decides]
    | _ => simp [met, WaitSpec.met]

end Wait

/-- **C43.** When `wait` cancels.  Either nothing that has happened so far meets the condition and
nothing has been cancelled; or something did, and right after the first such thing, and at no other
time, exactly the tasks that had not ended by then were cancelled, each once.  "Something" is a
completion that meets the condition of the mode, or an exception thrown into the call. -/
theorem C43_cancels_exactly_when {s : WS} (h : Wait.Reach s) :
    (s.log.any (WaitSpec.met s.mode s.w) = false ∧ ∀ t, .cancel t ∉ s.log) ∨
    ∃ pre x post,
      s.log = pre ++ [x] ++ (s.waiters.filter (fun t => !WaitSpec.endedIn (pre ++ [x]) t)).map .cancel
        ++ post ∧
      pre.any (WaitSpec.met s.mode s.w) = false ∧ WaitSpec.met s.mode s.w x = true ∧
      ∀ t, Wait.Obs.cancel t ∉ pre ++ [x] ++ post := by
  have hi := h.inv
  have hr := hi.live.calm.reach
  have hd := Live.annDone hi.live
  cases hc : s.cancelled with
  | false =>
    obtain ⟨h1, h2⟩ := hi.data.canc.no hc
    rw [met_eq hr hd] at h1
    exact Or.inl ⟨h1, h2⟩
  | true =>
    obtain ⟨pre, x, post, h1, h2, h3, h4, h5, h6⟩ := hi.data.canc.yes hc
    rw [met_eq hr (fun t ht => hd t (by rw [h1]; simp [ht]))] at h2
    rw [met_eq hr (fun t ht => hd t (by rw [h1]; simp only [announced_append]; simp [ht]))] at h3
    rw [left_eq] at h1
    refine Or.inr ⟨pre, x, post, h1, h2, by simpa using h3, fun t => ?_⟩
    have := h4 t; have := h5 t; have := h6 t
    simp_all

namespace Wait

/-- How the log of the call grows. -/
def Grows (s s' : WS) : Prop :=
  ∃ new, s'.log = s.log ++ new ∧ (s.cancelled = true → noCancel new ∧ s'.cancelled = true) ∧
    ∀ t, Obs.cancel t ∈ new → t ∈ s'.remaining

theorem Grows.of {s s' : WS} (h1 : s'.log = s.log) (h2 : s'.cancelled = s.cancelled) : Grows s s' :=
  ⟨[], by simp [h1], fun h => ⟨by simp [noCancel], by rw [h2, h]⟩, by simp⟩

theorem Grows.trans {s s' s'' : WS} (h : Grows s s') (h' : Grows s' s'')
    (hr : s''.remaining = s'.remaining) : Grows s s'' := by
  obtain ⟨n, a, b, c⟩ := h
  obtain ⟨n', a', b', c'⟩ := h'
  refine ⟨n ++ n', by rw [a', a, List.append_assoc], fun hc => ⟨fun t => ?_, (b' (b hc).2).2⟩, fun t ht => ?_⟩
  · have := (b hc).1 t; have := (b' (b hc).2).1 t; simp_all
  · rcases List.mem_append.1 ht with ht | ht
    · rw [hr]; exact c t ht
    · exact c' t ht

theorem cancelRemaining_grows {s : WS} {l : List Obs} (hl : noCancel l) :
    Grows s (cancelRemaining { s with log := s.log ++ l }) := by
  unfold cancelRemaining
  split
  · exact ⟨l, rfl, fun h => ⟨hl, h⟩, fun t ht => absurd ht (hl t)⟩
  · rename_i hc
    refine ⟨l ++ s.remaining.map .cancel, by simp, fun h => absurd h hc, fun t ht => ?_⟩
    rcases List.mem_append.1 ht with ht | ht
    · exact absurd ht (hl t)
    · simpa using ht

theorem cancelRemaining_remaining (s : WS) : (cancelRemaining s).remaining = s.remaining := by
  unfold cancelRemaining; split <;> rfl

theorem drain_grows {s s' : WS} (h : drain s = some s') : Grows s s' ∧ s'.remaining = s.remaining := by
  unfold drain at h
  split at h
  · cases h; exact ⟨.of rfl rfl, rfl⟩
  · split at h
    · cases h
    · cases h; exact ⟨.of rfl rfl, rfl⟩

theorem uncancel_grows {s s' : WS} (h : uncancelAndDrain s = some s') :
    Grows s s' ∧ s'.remaining = s.remaining := by
  unfold uncancelAndDrain at h
  split at h
  · cases h; exact ⟨.of rfl rfl, rfl⟩
  · have := drain_grows h
    exact this

theorem goOn_grows {s s' : WS} (h : goOn s = some s') : Grows s s' := by
  unfold goOn at h
  split at h
  · cases h; exact .of rfl rfl
  · obtain ⟨h1, h2⟩ := uncancel_grows h
    exact (cancelRemaining_grows (by simp [noCancel])).trans h1 h2
  · cases h
    exact (cancelRemaining_grows (by simp [noCancel])).trans (.of rfl rfl) rfl
  · exact (drain_grows h).1
  · exact (uncancel_grows h).1
  · cases h; exact .of rfl rfl
  · cases h; exact .of rfl rfl

theorem doneCallback_grows (s : WS) (t : Nat) : Grows s (doneCallback s t) := by
  have k : ∀ (v : World) (r : List Nat) (f : Option Nat),
      Grows s (cancelRemaining { s with w := v, remaining := r, first := f, log := s.log ++ [.ended t] }) :=
    fun v r f => cancelRemaining_grows (s := { s with w := v, remaining := r, first := f })
      (l := [.ended t]) (by simp [noCancel])
  have k2 : ∀ (v : World) (r : List Nat),
      Grows s { s with w := v, remaining := r, log := s.log ++ [.ended t] } :=
    fun v r => ⟨[.ended t], rfl, fun h => ⟨by simp [noCancel], h⟩, by simp⟩
  unfold doneCallback
  dsimp only
  split <;> split
  · exact k _ _ _
  · exact k2 _ _
  · exact k _ _ _
  · exact k2 _ _

theorem exec_grows {s s' : WS} {a : WAct} (hf : s.phase = .idle → s.log = []) (he : exec s a = some s') :
    Grows s s' := by
  cases a with
  | wait ts m =>
    simp only [exec] at he
    split at he
    · rename_i p rest hst
      split at he
      · rename_i hc
        unfold start at he
        dsimp only at he
        have g : Grows s (if ((enroll s p ts m).w.task p).mustCancel > 0 then
            cancelRemaining { enroll s p ts m with log := (enroll s p ts m).log ++ [.thrown none] }
            else enroll s p ts m) := by
          split
          · exact cancelRemaining_grows (s := enroll s p ts m) (by simp [noCancel])
          · exact .of rfl rfl
        split at he
        · cases he
        · cases he
          exact g.trans (.of rfl rfl) rfl
      · cases he
    · cases he
  | sched a =>
    simp only [exec] at he
    split at he
    case isFalse => cases he
    split at he
    · cases he
    rename_i w' r hx
    have g0 : ∀ s1 : WS, Grows { s with w := w' } s1 → Grows s s1 := fun s1 h => h
    refine g0 _ ?_
    unfold hook at he
    split at he
    · split at he
      · cases he; exact doneCallback_grows _ _
      · cases he; exact .of rfl rfl
    · split at he
      · exact goOn_grows he
      · cases he; exact .of rfl rfl
    · split at he
      · exact goOn_grows he
      · cases he; exact .of rfl rfl
    · cases he; exact .of rfl rfl

end Wait

/-- **C43.** The step in which `wait` cancels a task delivers `CancelledError` to it: after the step the
task is scheduled with that exception (what happens then is C31). -/
theorem C43_cancel_delivered {s s' : WS} {a : WAct} {t : Nat} (h : Wait.Reach s)
    (he : Wait.exec s a = some s') (hold : .cancel t ∉ s.log) (hnew : .cancel t ∈ s'.log) :
    (s'.w.task t).state = .scheduled ∧ (s'.w.task t).exc = some .cancelled := by
  have hinv' := exec_inv h.inv he
  obtain ⟨new, g1, g2, g3⟩ := exec_grows (fun hp => (h.inv.data.idle hp).2) he
  have hn : .cancel t ∈ new := by
    rw [g1] at hnew
    exact (List.mem_append.1 hnew).resolve_left hold
  have hc : s.cancelled = false := by
    cases hx : s.cancelled with
    | false => rfl
    | true => exact absurd hn ((g2 hx).1 t)
  have hc' : s'.cancelled = true := by
    cases hx : s'.cancelled with
    | true => rfl
    | false => exact absurd hnew ((hinv'.data.canc.no hx).2 t)
  cases a with
  | sched a =>
    obtain ⟨w', r, -, h1, -⟩ := exec_own h.inv he
    exact h1.cancels hc hc' t (g3 t hn)
  | wait ts m =>
    simp only [Wait.exec] at he
    split at he
    · split at he
      · rename_i p rest hst hcc
        obtain ⟨h1, h2, h3, h4, h5, h6⟩ := hcc
        exact (start_own h.inv hst h1 h3 h2 h5 h6 he).1.cancels hc hc' t (g3 t hn)
      · cases he
    · cases he

/-- **C43.** Apart from its own tasks and its caller, `wait` does nothing to any task: in particular the
tasks the user passes in are never cancelled by it.  A step of the system with a call of `wait` in it
leaves every such task as the same step without the call does. -/
theorem C43_others_untouched {s s' : WS} {a : Act} (h : Wait.Reach s)
    (he : Wait.exec s (.sched a) = some s') :
    ∃ w' r, Sched.exec s.w a = some (w', r) ∧
      ∀ t, t ∉ s'.waiters → t ≠ s'.parent → s'.w.task t = w'.task t := by
  obtain ⟨w', r, h1, h2, -⟩ := exec_own h.inv he
  exact ⟨w', r, h1, h2.others⟩

/-- **C43.** Likewise for the step that makes the call. -/
theorem C43_start_untouched {s s' : WS} {ts : List Nat} {m : Mode} (h : Wait.Reach s)
    (he : Wait.exec s (.wait ts m) = some s') :
    s'.waiters = ts ∧ ∀ t, t ∉ ts → t ≠ s'.parent → s'.w.task t = s.w.task t := by
  simp only [Wait.exec] at he
  split at he
  · split at he
    · rename_i p rest hst hcc
      obtain ⟨h1, h2, h3, h4, h5, h6⟩ := hcc
      obtain ⟨h7, h8, -⟩ := start_own h.inv hst h1 h3 h2 h5 h6 he
      exact ⟨h8, fun t ht hp => h7.others t (by rw [h8]; exact ht) hp⟩
    · cases he
  · cases he

/-- **C43.** No lost wake-up: once the last task has ended and its callbacks have run, the caller is no
longer suspended. -/
theorem C43_caller_woken {s : WS} (h : Wait.Reach s) (hp : s.phase = .awaiting)
    (hd : ∀ t ∈ s.waiters, WaitSpec.endedIn s.log t = true) :
    (s.w.task s.parent).state ≠ .pending := by
  have hi := h.inv
  have hrem : s.remaining = [] := by
    rw [hi.data.rem, left_eq, List.filter_eq_nil_iff]
    intro t ht
    simp [hd t ht]
  have hf := hi.data.fired.2 ⟨by rw [hp]; simp, hrem⟩
  have := hi.live.onE (by simp [hp])
  unfold OnEvent at this
  intro hc
  rw [hc] at this
  simp [TState.isDone, hf] at this

/-! ### `select` and `gather` -/

/-- **C41.** `select` returns the index and the result of the awaitable that completed first, an
exception being re-raised; by then every one of its tasks is done. -/
theorem C41_first_completed {s : WS} {idx : Option Nat} (h : Wait.Reach s)
    (hm : s.mode = .firstCompleted) (hp : s.phase = .returned idx) :
    ∃ i t, s.waiters[i]? = some t ∧ (WaitSpec.order s.w s.waiters).head? = some t ∧
      Wait.selectResult s = some (i, s.w.result t) ∧ ∀ u ∈ s.waiters, s.w.done u = true := by
  have hi := h.inv
  obtain ⟨h1, h2⟩ := hi.data.returned idx hp
  have ho := hi.order_done h1
  have hne : s.waiters ≠ [] := (hi.data.ne (by rw [hp]; simp)).1
  obtain ⟨u, us, hu⟩ : ∃ u us, s.waiters = u :: us := List.exists_cons_of_ne_nil hne
  have hx := C43_index h hp
  rw [hm] at hx
  simp only [WaitSpec.decider] at hx
  cases hh : (WaitSpec.order s.w s.waiters).head? with
  | none =>
    rw [List.head?_eq_none_iff, ho.1] at hh
    have := ho.2 u (by rw [hu]; simp)
    rw [hh] at this; cases this
  | some t =>
    have htm : t ∈ s.waiters := by
      have := List.mem_of_mem_head? hh
      rw [order_eq] at this
      simpa using (List.mem_filter.1 this).2
    rw [hh] at hx
    simp only [Option.bind_some, position_eq htm] at hx
    have hg : s.waiters[s.waiters.idxOf t]? = some t := getElem?_idxOf htm
    refine ⟨s.waiters.idxOf t, t, hg, rfl, ?_, C43_returns_only_when_done h hp⟩
    simp [Wait.selectResult, hp, hx, hg]

/-- **C41.** The tasks that lost are cancelled as soon as the first has completed, before anything else
happens: the call's log begins with that completion and their cancellations. -/
theorem C41_losers_cancelled {s : WS} {t : Nat} {log : List Wait.Obs} (h : Wait.Reach s)
    (hm : s.mode = .firstCompleted) (hl : s.log = .ended t :: log) :
    ∃ post, s.log = .ended t :: (s.waiters.filter (· ≠ t)).map .cancel ++ post := by
  rcases C43_cancels_exactly_when h with ⟨h1, -⟩ | ⟨pre, x, post, h1, h2, h3, -⟩
  · rw [hl] at h1
    simp [WaitSpec.met, hm] at h1
  · cases pre with
    | nil =>
      rw [hl] at h1
      simp only [List.nil_append, List.cons_append, List.cons.injEq] at h1
      refine ⟨post, ?_⟩
      obtain ⟨rfl, h1⟩ := h1
      rw [hl, h1]
      have hfe : (fun u => !WaitSpec.endedIn [Wait.Obs.ended t] u) = (fun u => decide (u ≠ t)) := by
        funext u
        by_cases hu : u = t <;> simp [WaitSpec.endedIn, hu]
      simp only [List.cons_append, hfe]
    | cons y pre =>
      rw [hl] at h1
      simp only [List.cons_append, List.cons.injEq] at h1
      obtain ⟨rfl, -⟩ := h1
      simp [WaitSpec.met, hm] at h2

/-- **C42.** `gather` returns all results in argument order if no awaitable failed, whatever the order
in which they completed; otherwise it re-raises the exception of the one that failed first.  By then
every one of its tasks is done. -/
theorem C42_results_in_order {s : WS} {idx : Option Nat} (h : Wait.Reach s)
    (hm : s.mode = .firstException) (hp : s.phase = .returned idx) :
    (∀ u ∈ s.waiters, s.w.done u = true) ∧
    (((∀ u ∈ s.waiters, WaitSpec.failed s.w u = false) ∧
        Wait.gatherResult s = some (.all (s.waiters.map s.w.result))) ∨
      ∃ t e, (WaitSpec.order s.w s.waiters).find? (WaitSpec.failed s.w) = some t ∧
        s.w.result t = .raises e ∧ Wait.gatherResult s = some (.one (.raises e))) := by
  refine ⟨C43_returns_only_when_done h hp, ?_⟩
  have hi := h.inv
  obtain ⟨h1, h2⟩ := hi.data.returned idx hp
  have ho := hi.order_done h1
  have hx := C43_index h hp
  rw [hm] at hx
  simp only [WaitSpec.decider] at hx
  cases hh : (WaitSpec.order s.w s.waiters).find? (WaitSpec.failed s.w) with
  | none =>
    rw [hh] at hx
    simp only [Option.bind_none] at hx
    left
    refine ⟨fun u hu => ?_, by simp [Wait.gatherResult, hp, hx]⟩
    have := List.find?_eq_none.1 hh u (by rw [ho.1]; exact ho.2 u hu)
    simpa using this
  | some t =>
    right
    have htm : t ∈ s.waiters := by
      have := List.mem_of_find?_eq_some hh
      rw [order_eq] at this
      simpa using (List.mem_filter.1 this).2
    have hft : WaitSpec.failed s.w t = true := List.find?_some hh
    rw [hh] at hx
    simp only [Option.bind_some, position_eq htm] at hx
    have hg : s.waiters[s.waiters.idxOf t]? = some t := getElem?_idxOf htm
    unfold WaitSpec.failed at hft
    split at hft
    · rename_i e he
      refine ⟨t, e, rfl, he, ?_⟩
      simp [Wait.gatherResult, hp, hx, hg, he]
    · cases hft

/-! ### Leaving nothing running -/

namespace Wait

/-- The schedules of the examples.  Task 0 calls `wait` on two awaitables, run by tasks 1 and 3. -/
def begin_ (m : Mode) : List WAct :=
  [.sched .enter, .sched (.startSoon 0), .sched .pop, .wait [1, 3] m,
   .sched .pop, .sched (.await (.gpi 1) false)]

/-- Task `t` has ended: run its callbacks. -/
def over : List WAct := [.sched .cbStep, .sched .cbStep]

def selecting : List WAct :=
  begin_ .firstCompleted ++ [.sched .pop, .sched (.ret 7)] ++ over ++
  [.sched .pop, .sched (.raise .cancelled)] ++ over ++ [.sched .pop]

def gathering : List WAct :=
  begin_ .firstException ++ [.sched .pop, .sched (.ret 7)] ++ over ++
  [.sched .exit, .sched (.fire 1), .sched .pop, .sched (.ret 5)] ++ over ++ [.sched .pop]

def failing : List WAct :=
  begin_ .firstException ++ [.sched .pop, .sched (.raise (.user 4))] ++ over ++
  [.sched .pop, .sched (.raise .cancelled)] ++ over ++ [.sched .pop]

def interrupted : List WAct :=
  [.sched .enter, .sched (.startSoon 0), .sched (.startSoon 2), .sched .pop,
   .wait [1, 3] .firstCompleted, .sched .pop, .sched (.await (.gpi 1) false),
   .sched .pop, .sched (.await (.gpi 2) false), .sched .pop, .sched (.cancel 0)]

def cancelling : List WAct :=
  interrupted ++ [.sched (.ret 0), .sched .cbStep, .sched .pop, .sched .pop,
   .sched (.raise .cancelled)] ++ over ++ [.sched .pop, .sched (.raise .cancelled)] ++ over ++
  [.sched .pop, .sched (.raise .cancelled)]

def twice : List WAct :=
  interrupted ++ [.sched (.cancel 0), .sched (.ret 0), .sched .cbStep, .sched .pop]

end Wait

/-- **C43, full statement.** When the task that called `wait` has finished, so have all the tasks of the
call. -/
def C43_leaves_nothing_running_full : Prop :=
  ∀ s : WS, Wait.Reach s → s.phase ≠ .idle → s.w.done s.parent = true →
    ∀ t ∈ s.waiters, s.w.done t = true

/-- **C43.** It holds if the caller is not cancelled again before an earlier cancellation has reached it,
and is not killed. -/
theorem C43_leaves_nothing_running_partial {s : WS} (h : Wait.Gentle s) (hp : s.phase ≠ .idle)
    (hd : s.w.done s.parent = true) : ∀ t ∈ s.waiters, s.w.done t = true := by
  have hg := h.gi
  have hin : s.phase.inside = false := by
    cases hx : s.phase.inside with
    | false => rfl
    | true =>
      have := (hg.moks hx).1
      unfold World.done at hd
      rw [hd] at this; cases this
  cases hph : s.phase with
  | idle => exact absurd hph hp
  | awaiting => rw [hph] at hin; cases hin
  | draining => rw [hph] at hin; cases hin
  | returned i => exact C43_returns_only_when_done h.reach hph
  | raised e => exact (C43_raises_only_cancelled h.reach hph).2.2
  | closed => exact absurd hph hg.open_

/-- **C43.** It does not hold in general: a caller that is cancelled twice before it runs is ended at the
next `await` of the call, with its tasks cancelled but still running. -/
theorem C43_leaves_nothing_running_counterexample : ¬ C43_leaves_nothing_running_full := by
  intro h
  have hr : Wait.Reach ((Wait.run {} Wait.twice).getD {}) := ⟨Wait.twice, by rfl⟩
  have := h _ hr (by decide +kernel) (by decide +kernel) 1 (by decide +kernel)
  revert this
  decide +kernel

/-! ### Witnesses -/

/-- A state of each kind the theorems of this file speak of is reached. -/
theorem Wait.reach_of {as : List WAct} (h : (Wait.run {} as).isSome = true) :
    Wait.Reach ((Wait.run {} as).getD {}) := by
  refine ⟨as, ?_⟩
  cases hx : Wait.run {} as with
  | none => rw [hx] at h; cases h
  | some s => rfl

/-- `select` of two: the second completes first with 7, the first is cancelled and has then ended. -/
example : ∃ s, Wait.Reach s ∧ s.mode = .firstCompleted ∧ s.phase = .returned (some 1) ∧
    s.waiters = [1, 3] ∧ s.log = [.ended 3, .cancel 1, .ended 1] ∧
    Wait.selectResult s = some (1, .returns 7) :=
  ⟨_, Wait.reach_of (as := Wait.selecting) (by decide +kernel), by decide +kernel, by decide +kernel,
    by decide +kernel, by decide +kernel, by decide +kernel⟩

/-- `gather` of two, the second completing first. -/
example : ∃ s, Wait.Reach s ∧ s.mode = .firstException ∧ s.phase = .returned none ∧
    s.log = [.ended 3, .ended 1] ∧ Wait.gatherResult s = some (.all [.returns 5, .returns 7]) :=
  ⟨_, Wait.reach_of (as := Wait.gathering) (by decide +kernel), by decide +kernel, by decide +kernel,
    by decide +kernel, by decide +kernel⟩

/-- `gather` of two, the second failing while the first is still running. -/
example : ∃ s, Wait.Reach s ∧ s.mode = .firstException ∧ s.phase = .returned (some 1) ∧
    s.log = [.ended 3, .cancel 1, .ended 1] ∧ Wait.gatherResult s = some (.one (.raises (.user 4))) :=
  ⟨_, Wait.reach_of (as := Wait.failing) (by decide +kernel), by decide +kernel, by decide +kernel,
    by decide +kernel, by decide +kernel⟩

/-- The caller of `wait` is cancelled: its tasks are cancelled, it waits for them and re-raises. -/
example : ∃ s, Wait.Gentle s ∧ s.phase = .raised .cancelled ∧
    s.log = [.thrown (some .cancelled), .cancel 1, .cancel 3, .ended 1, .ended 3] ∧
    s.w.done s.parent = true := by
  have h : Wait.Gentle ((Wait.runGentle {} Wait.cancelling).getD {}) :=
    Wait.runGentle_ok (as := Wait.cancelling) .init rfl
  exact ⟨_, h, by decide +kernel, by decide +kernel, by decide +kernel⟩

/-- A step in which `wait` cancels a task. -/
example : ∃ s s', Wait.Reach s ∧ Wait.exec s (.sched .cbStep) = some s' ∧
    .cancel 1 ∉ s.log ∧ .cancel 1 ∈ s'.log ∧ s.w.task 0 ≠ {} ∧ 0 ∉ s'.waiters :=
  ⟨_, (Wait.exec ((Wait.run {} (Wait.selecting.take 8)).getD {}) (.sched .cbStep)).getD {},
    Wait.reach_of (as := Wait.selecting.take 8) (by decide +kernel), by rfl, by decide +kernel,
    by decide +kernel, by decide +kernel, by decide +kernel⟩

/-- The caller is waiting and all its tasks have ended. -/
example : ∃ s, Wait.Reach s ∧ s.phase = .awaiting ∧ s.waiters ≠ [] ∧
    ∀ t ∈ s.waiters, WaitSpec.endedIn s.log t = true :=
  ⟨_, Wait.reach_of (as := Wait.selecting.take 14) (by decide +kernel), by decide +kernel,
    by decide +kernel, by decide +kernel⟩

end Verif
