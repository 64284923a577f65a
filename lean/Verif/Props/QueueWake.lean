import Verif.Lemmas.QueueWake

/-! Queues: C40. -/

namespace Verif

open Queue Sched

variable {α : Type} {lt : α → α → Bool}

/-- C40 in full: when control is back with the simulator, nobody waits in `get` although there are
items, and nobody waits in `put` although there is a free slot. -/
def C40_no_lost_wakeup_full : Prop :=
  ∀ (lt : Nat → Nat → Bool) (k : Kind) (m : Int) (as : List (QAct Nat)) (s : QW Nat),
    run lt (new k m) as = some s → s.w.inside = false →
    ∀ t, (s.w.task t).state = .pending →
      (∀ c, s.op t = some (.get c) → s.items = []) ∧
      (∀ c x, s.op t = some (.put c x) → full s = true)

/-- Tasks 0 and 1 wait in `get`. Task 2 cancels task 0 and, before task 0 had a chance to run, puts
an item: the wake-up goes to task 0, which ends by the cancellation. Task 1 keeps waiting although
the item is there. -/
theorem C40_no_lost_wakeup_counterexample : ¬ C40_no_lost_wakeup_full := by
  intro h
  have hr : run (fun a b => decide (a < b)) (new .fifo 0)
      [.sched .enter, .sched (.startSoon 0), .sched (.startSoon 1), .sched (.startSoon 2),
       .sched .pop, .get, .sched .pop, .get, .sched .pop, .sched (.cancel 0), .putNowait 7,
       .sched (.ret 0), .sched .cbStep, .sched .pop, .sched (.raise .cancelled), .sched .cbStep,
       .sched .exit] = some ((run (fun a b => decide (a < b)) (new .fifo 0)
      [.sched .enter, .sched (.startSoon 0), .sched (.startSoon 1), .sched (.startSoon 2),
       .sched .pop, .get, .sched .pop, .get, .sched .pop, .sched (.cancel 0), .putNowait 7,
       .sched (.ret 0), .sched .cbStep, .sched .pop, .sched (.raise .cancelled), .sched .cbStep,
       .sched .exit]).getD (new .fifo 0)) := by rfl
  have := (h _ _ _ _ _ hr (by decide +kernel) 1 (by decide +kernel)).1 1 (by decide +kernel)
  revert this
  decide +kernel

/-- Only a bounded queue makes a `put` wait. -/
theorem Queue.Gentle.bounded {k : Kind} {m : Int} {s : QW α} (h : Gentle lt k m s) :
    ∀ t o, s.op t = some o → side o = false → 0 < s.maxsize := by
  induction h with
  | new => intro t o h; simp [Queue.new] at h
  | @step s s' a _ _ he ih =>
    obtain ⟨hk, hd⟩ := exec_data he
    rw [hk.max]
    have hloop : ∀ {s0 : QW α} {t : Nat} {o : Op α}, s0.op = s.op → s0.maxsize = s.maxsize →
        LoopD lt s0 t o s' → ∀ u o', s'.op u = some o' → side o' = false → 0 < s.maxsize := by
      intro s0 t o h0 hm hd u o' ho' hs
      have hnone : s'.op = upd s0.op t none → 0 < s.maxsize := by
        intro he'
        rw [he', h0] at ho'
        by_cases hu : u = t
        · subst hu; rw [upd_self] at ho'; cases ho'
        · rw [upd_ne _ _ hu] at ho'; exact ih u o' ho' hs
      cases hd with
      | blocked _ _ hop hb =>
        rcases hop with hop | hop
        · rw [hop, h0] at ho'
          by_cases hu : u = t
          · subst hu
            rw [upd_self] at ho'
            cases ho'
            have hf := hb hs
            unfold full at hf
            rw [hm] at hf
            split at hf
            · cases hf
            · omega
          · rw [upd_ne _ _ hu] at ho'; exact ih u o' ho' hs
        · exact hnone hop
      | raised _ _ hop => exact hnone hop
      | put _ _ _ _ _ _ hop => exact hnone hop
      | got _ _ _ _ _ hop => exact hnone hop
    cases hd with
    | quiet _ _ ho => rw [ho]; exact ih
    | cont t o _ _ hd => exact hloop rfl rfl hd
    | call t o ob _ _ hd => exact hloop (s0 := begin s ob) rfl rfl hd
    | putN _ _ _ _ ho => rw [ho]; exact ih
    | getN _ _ _ ho => rw [ho]; exact ih
    | refused _ _ _ _ ho => rw [ho]; exact ih

/-- **C40**, for histories that do not cancel a task inside `put` or `get` and kill one only while
it has not been woken yet. While somebody waits in `get`, at least as many `get` calls have been
woken, and are about to go on, as there are items; while somebody waits in `put`, at least as many
`put` calls as there are free slots. -/
theorem C40_waiters_woken_partial {k : Kind} {m : Int} {s : QW α} (h : Gentle lt k m s) {t : Nat}
    (hp : (s.w.task t).state = .pending) :
    (∀ c, s.op t = some (.get c) → ∃ W : List Nat, W.Nodup ∧ s.items.length ≤ W.length ∧
      ∀ u ∈ W, (∃ c, s.op u = some (.get c)) ∧ (s.w.task u).state = .scheduled ∧
        (s.w.task u).exc = none) ∧
    (∀ c x, s.op t = some (.put c x) → ∃ W : List Nat, W.Nodup ∧
      s.maxsize ≤ s.items.length + W.length ∧
      ∀ u ∈ W, (∃ c x, s.op u = some (.put c x)) ∧ (s.w.task u).state = .scheduled ∧
        (s.w.task u).exc = none) := by
  have hq := h.qi
  have key : ∀ o, s.op t = some o → ∃ W : List Nat, W.Nodup ∧ need s (side o) ≤ W.length ∧
      ∀ u ∈ W, Woken s (side o) u := by
    intro o ho
    have hline : ∃ e, (e, t) ∈ line s (side o) := by
      rcases hq.opOk t o ho with h1 | ⟨_, _, _, h1, _⟩ | ⟨e, -, h1⟩
      · unfold World.done at h1; rw [hp] at h1; cases h1
      · rw [hp] at h1; cases h1
      · exact ⟨e, h1⟩
    obtain ⟨e, hm⟩ := hline
    obtain ⟨W, h1, h2, h3⟩ := hq.cnt (side o) ⟨_, hm, by unfold World.done; simp only; rw [hp]; rfl⟩
    exact ⟨W, h1, by omega, h3⟩
  constructor
  · intro c ho
    obtain ⟨W, h1, h2, h3⟩ := key _ ho
    refine ⟨W, h1, by simp only [side, need] at h2; omega, ?_⟩
    intro u hu
    obtain ⟨o, e1, e2, e3, e4⟩ := h3 u hu
    cases o with
    | put => cases e2
    | get c' => exact ⟨⟨c', e1⟩, e3, e4⟩
  · intro c x ho
    obtain ⟨W, h1, h2, h3⟩ := key _ ho
    refine ⟨W, h1, by simp only [side, need] at h2; omega, ?_⟩
    intro u hu
    obtain ⟨o, e1, e2, e3, e4⟩ := h3 u hu
    cases o with
    | put c' x' => exact ⟨⟨c', x', e1⟩, e3, e4⟩
    | get => cases e2

/-- **C40**, for the same histories: when control is back with the simulator, nobody waits in `get`
although there are items, and nobody waits in `put` although there is a free slot. -/
theorem C40_no_lost_wakeup_partial {k : Kind} {m : Int} {s : QW α} (h : Gentle lt k m s)
    (hi : s.w.inside = false) {t : Nat} (hp : (s.w.task t).state = .pending) :
    (∀ c, s.op t = some (.get c) → s.items = []) ∧
    (∀ c x, s.op t = some (.put c x) → full s = true) := by
  have hcalm := h.qi.calm
  have hq : s.w.queue = [] := (outside_empty hcalm.reach hi).2
  obtain ⟨D, hg⟩ := hcalm.reach.good
  have hno : ∀ u, (s.w.task u).state ≠ .scheduled := by
    intro u hu
    obtain ⟨e, he, -⟩ := (hg.inv.ok u (by simp)).sched hu
    rw [hq] at he; cases he
  obtain ⟨h1, h2⟩ := C40_waiters_woken_partial h hp
  constructor
  · intro c ho
    obtain ⟨W, -, e2, e3⟩ := h1 c ho
    cases W with
    | nil => simpa using e2
    | cons u W => exact absurd (e3 u (by simp)).2.1 (hno u)
  · intro c x ho
    obtain ⟨W, -, e2, e3⟩ := h2 c x ho
    cases W with
    | nil =>
      have := h.bounded t _ ho rfl
      unfold full
      simp at e2
      rw [if_neg (by omega)]
      simpa using e2
    | cons u W => exact absurd (e3 u (by simp)).2.1 (hno u)

instance [DecidableEq α] (s : QW α) (a : QAct α) : Decidable (gentle s a) := by
  unfold gentle; split <;> infer_instance

/-- Run a history, checking that it is gentle. -/
def runGentle [DecidableEq α] (lt : α → α → Bool) : QW α → List (QAct α) → Option (QW α)
  | s, [] => some s
  | s, a :: as => if gentle s a then (exec lt s a).bind fun s' => runGentle lt s' as else none

theorem runGentle_ok [DecidableEq α] {k : Kind} {m : Int} {as : List (QAct α)} {s s' : QW α}
    (h : Gentle lt k m s) (hr : runGentle lt s as = some s') : Gentle lt k m s' := by
  induction as generalizing s with
  | nil => cases hr; exact h
  | cons a as ih =>
    simp only [runGentle] at hr
    split at hr
    · rename_i hg
      cases he : exec lt s a with
      | none => rw [he] at hr; cases hr
      | some s1 => rw [he] at hr; exact ih (h.step hg he) hr
    · cases hr

-- two tasks wait in `get`; one item is put: task 0 has been woken, task 1 still waits
example : ∃ s : QW Nat, Gentle (fun a b => decide (a < b)) .fifo 0 s ∧ s.items = [7] ∧
    s.op 0 = some (.get 0) ∧ (s.w.task 0).state = .scheduled ∧
    s.op 1 = some (.get 1) ∧ (s.w.task 1).state = .pending := by
  have h : Gentle (fun a b => decide (a < b)) .fifo 0 ((runGentle (fun a b => decide (a < b))
      (new .fifo 0) [.sched .enter, .sched (.startSoon 0), .sched (.startSoon 1),
        .sched (.startSoon 2), .sched .pop, .get, .sched .pop, .get, .sched .pop,
        .putNowait 7]).getD (new .fifo 0)) :=
    runGentle_ok (as := [.sched .enter, .sched (.startSoon 0), .sched (.startSoon 1),
        .sched (.startSoon 2), .sched .pop, .get, .sched .pop, .get, .sched .pop,
        .putNowait 7]) .new rfl
  exact ⟨_, h, by decide +kernel, by decide +kernel, by decide +kernel, by decide +kernel,
    by decide +kernel⟩

-- a full queue, task 1 waits in `put`, control with the simulator
example : ∃ s : QW Nat, Gentle (fun a b => decide (a < b)) .fifo 1 s ∧ s.w.inside = false ∧
    s.op 1 = some (.put 1 5) ∧ (s.w.task 1).state = .pending ∧ full s = true := by
  have h : Gentle (fun a b => decide (a < b)) .fifo 1 ((runGentle (fun a b => decide (a < b))
      (new .fifo 1) [.sched .enter, .sched (.startSoon 0), .sched (.startSoon 1),
        .sched .pop, .put 3, .sched (.await (.gpi 0) false), .sched .pop, .put 5,
        .sched .exit]).getD (new .fifo 1)) :=
    runGentle_ok (as := [.sched .enter, .sched (.startSoon 0), .sched (.startSoon 1),
        .sched .pop, .put 3, .sched (.await (.gpi 0) false), .sched .pop, .put 5,
        .sched .exit]) .new rfl
  exact ⟨_, h, by decide +kernel, by decide +kernel, by decide +kernel, by decide +kernel⟩

end Verif
