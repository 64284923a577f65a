import Verif.Model.EventLoop

/-! The event loop: C27. -/

namespace Verif

open Loop

namespace Loop

theorem Reach.induct {P : St → Prop} (h0 : P {})
    (hs : ∀ s a s', Reach s → P s → exec s a = some s' → P s') {s : St} (h : Reach s) : P s := by
  have key : ∀ (as : List Act) (s0 : St), Reach s0 → P s0 → run s0 as = some s → P s := by
    intro as
    induction as with
    | nil => intro s0 _ hp hr; cases hr; exact hp
    | cons a as ih =>
      intro s0 hr0 hp hr
      simp only [run] at hr
      split at hr
      · rename_i s1 he
        refine ih s1 ?_ (hs _ _ _ hr0 hp he) hr
        obtain ⟨bs, hb⟩ := hr0
        refine ⟨bs ++ [a], ?_⟩
        have : ∀ (bs : List Act) (u : St), run u bs = some s0 → run u (bs ++ [a]) = some s1 := by
          intro bs
          induction bs with
          | nil => intro u hu; cases hu; simp [run, he]
          | cons b bs ih =>
            intro u hu
            simp only [run, List.cons_append] at hu ⊢
            split at hu
            · exact ih _ hu
            · cases hu
        exact this bs _ hb
      · cases hr
  obtain ⟨as, ha⟩ := h
  exact key as {} ⟨[], rfl⟩ h0 ha

/-- Every step records at most one observation. -/
theorem exec_log {s s' : St} {a : Act} (he : exec s a = some s') :
    s'.log = s.log ∨ ∃ e, s'.log = s.log ++ [e] := by
  cases a <;> simp only [exec, cancel, pop, outer, schedule, scheduleLeft] at he
  all_goals repeat' split at he
  all_goals first
    | (cases he; done)
    | (cases he; exact Or.inl rfl)
    | (cases he; exact Or.inr ⟨_, rfl⟩)

/-- Any observation was made by a step from a reachable state. -/
theorem Reach.split {s : St} (h : Reach s) {pre post : List Ev} {e : Ev}
    (hl : s.log = pre ++ e :: post) :
    ∃ s0 a s1, Reach s0 ∧ s0.log = pre ∧ exec s0 a = some s1 ∧ s1.log = pre ++ [e] := by
  revert pre post e hl
  refine h.induct (P := fun s => ∀ {pre post : List Ev} {e : Ev}, s.log = pre ++ e :: post →
    ∃ s0 a s1, Reach s0 ∧ s0.log = pre ∧ exec s0 a = some s1 ∧ s1.log = pre ++ [e]) ?_ ?_
  · intro pre post e hl; simp at hl
  · intro s a s' hr ih he pre post e hl
    rcases exec_log he with h | ⟨e', h⟩
    · rw [h] at hl; exact ih hl
    · rw [h] at hl
      rcases List.eq_nil_or_concat post with rfl | ⟨post', x, rfl⟩
      · have := List.append_inj' hl rfl
        obtain ⟨h1, h2⟩ := this
        simp only [List.cons.injEq, and_true] at h2
        subst h2; subst h1
        exact ⟨s, a, s', hr, rfl, he, h⟩
      · have e1 : s.log ++ [e'] = (pre ++ e :: post') ++ [x] := by simpa using hl
        exact ih (List.append_inj' e1 rfl).1

/-- Position of a callback in the order in which callbacks are to run. -/
def key (log : List Ev) (i : Nat) : Int :=
  if Ev.schedL i ∈ log then -(i : Int) - 1 else (i : Int) + 1

structure LInv (s : St) : Prop where
  sorted : s.queue.Pairwise fun i j => key s.log i < key s.log j
  lt : ∀ i ∈ s.queue, i < s.next
  ev : ∀ i, Ev.sched i ∈ s.log ∨ Ev.schedL i ∈ s.log → i < s.next
  back : ∀ i, i < s.next → Ev.sched i ∈ s.log ∨ Ev.schedL i ∈ s.log
  one : ∀ i, ¬ (Ev.sched i ∈ s.log ∧ Ev.schedL i ∈ s.log)
  can : ∀ i, s.cancelled i = true ↔ Ev.cancel i ∈ s.log
  all : ∀ i, i < s.next → i ∈ s.queue ∨ Ev.run i ∈ s.log ∨ (Ev.skip i ∈ s.log ∧ Ev.cancel i ∈ s.log)
  gone : ∀ i, Ev.run i ∈ s.log → i ∉ s.queue ∧ i < s.next
  ord : (s.log.filterMap fun e => match e with | .sched i => some i | .schedL i => some i | _ => none)
    = List.range s.next

theorem LInv.quiet {s s' : St} (h : LInv s) {e : Ev} (hl : s'.log = s.log ++ [e])
    (he : e = .ret ∨ e = .exc) (hq : s'.queue = s.queue) (hn : s'.next = s.next)
    (hc : s'.cancelled = s.cancelled) : LInv s' := by
  have hk : ∀ i, key s'.log i = key s.log i := by
    intro i; unfold key; rw [hl]; rcases he with rfl | rfl <;> simp
  constructor
  · rw [hq]; exact h.sorted.imp (by intro a b; rw [hk, hk]; exact id)
  · rw [hq, hn]; exact h.lt
  · rw [hl, hn]; intro i; rcases he with rfl | rfl <;> simpa using h.ev i
  · rw [hl, hn]; intro i; rcases he with rfl | rfl <;> simpa using h.back i
  · rw [hl]; intro i; rcases he with rfl | rfl <;> simpa using h.one i
  · rw [hl, hc]; intro i; rcases he with rfl | rfl <;> simpa using h.can i
  · rw [hl, hn, hq]; intro i; rcases he with rfl | rfl <;> simpa using h.all i
  · rw [hl, hq, hn]; intro i; rcases he with rfl | rfl <;> simpa using h.gone i
  · rw [hl, hn, List.filterMap_append, h.ord]; rcases he with rfl | rfl <;> simp

theorem linv {s : St} (h : Reach s) : LInv s := by
  refine h.induct (P := LInv) ?_ ?_
  · constructor <;> simp
  · intro s a s' _ ih he
    cases a <;> simp only [exec] at he
    case schedule =>
      simp only [Option.some.injEq, schedule] at he; subst he
      have hfresh : Ev.schedL s.next ∉ s.log := fun h => Nat.lt_irrefl _ (ih.ev _ (Or.inr h))
      have hk : ∀ i, key (s.log ++ [.sched s.next]) i = key s.log i := by
        intro i; unfold key; simp
      constructor
      · simp only
        rw [List.pairwise_append]
        refine ⟨ih.sorted.imp (by intro a b; rw [hk, hk]; exact id), by simp, ?_⟩
        intro i hi j hj
        simp only [List.mem_singleton] at hj; subst hj
        rw [hk, hk]
        have := ih.lt i hi
        unfold key
        rw [if_neg hfresh]
        split <;> omega
      · intro i hi
        simp only [List.mem_append, List.mem_singleton] at hi ⊢
        rcases hi with hi | rfl
        · have := ih.lt i hi; omega
        · omega
      · intro i hi
        simp only [List.mem_append, List.mem_singleton, Ev.sched.injEq, reduceCtorEq, or_false] at hi
        rcases hi with (hi | rfl) | hi
        · have := ih.ev i (Or.inl hi); simp only; omega
        · simp only; omega
        · have := ih.ev i (Or.inr hi); simp only; omega
      · intro i hi
        simp only at hi
        by_cases h : i = s.next
        · left; simp [h]
        · rcases ih.back i (by omega) with h | h <;> simp [h]
      · intro i hi
        simp only [List.mem_append, List.mem_singleton, Ev.sched.injEq, reduceCtorEq, or_false] at hi
        rcases hi.1 with h | rfl
        · exact ih.one i ⟨h, hi.2⟩
        · exact hfresh hi.2
      · intro i; simpa using ih.can i
      · intro i hi
        simp only at hi
        by_cases h : i = s.next
        · left; simp [h]
        · rcases ih.all i (by omega) with h | h | h <;> simp [h]
      · intro i hi
        simp only [List.mem_append, List.mem_singleton, reduceCtorEq, or_false] at hi ⊢
        have := ih.gone i hi
        refine ⟨?_, by omega⟩
        rintro (h | h)
        · exact this.1 h
        · omega
      · simp only [List.filterMap_append, ih.ord, List.range_succ]; rfl
    case scheduleLeft =>
      simp only [Option.some.injEq, scheduleLeft] at he; subst he
      have hfresh : Ev.schedL s.next ∉ s.log := fun h => Nat.lt_irrefl _ (ih.ev _ (Or.inr h))
      have hk : ∀ i, i < s.next → key (s.log ++ [.schedL s.next]) i = key s.log i := by
        intro i hi; unfold key; simp [show i ≠ s.next by omega]
      constructor
      · simp only
        rw [List.pairwise_cons]
        refine ⟨?_, ?_⟩
        · intro i hi
          have := ih.lt i hi
          rw [hk i this]
          unfold key
          simp only [List.mem_append, List.mem_singleton, or_true, if_true]
          split <;> omega
        · exact ih.sorted.imp_of_mem (by
            intro a b ha hb; rw [hk a (ih.lt a ha), hk b (ih.lt b hb)]; exact id)
      · intro i hi
        simp only [List.mem_cons] at hi ⊢
        rcases hi with rfl | hi
        · omega
        · have := ih.lt i hi; omega
      · intro i hi
        simp only [List.mem_append, List.mem_singleton, Ev.schedL.injEq, reduceCtorEq, or_false] at hi
        rcases hi with hi | hi | rfl
        · have := ih.ev i (Or.inl hi); simp only; omega
        · have := ih.ev i (Or.inr hi); simp only; omega
        · simp only; omega
      · intro i hi
        simp only at hi
        by_cases h : i = s.next
        · right; simp [h]
        · rcases ih.back i (by omega) with h | h <;> simp [h]
      · intro i hi
        simp only [List.mem_append, List.mem_singleton, Ev.schedL.injEq, reduceCtorEq, or_false] at hi
        rcases hi.2 with h | rfl
        · exact ih.one i ⟨hi.1, h⟩
        · exact Nat.lt_irrefl _ (ih.ev _ (Or.inl hi.1))
      · intro i; simpa using ih.can i
      · intro i hi
        simp only at hi
        by_cases h : i = s.next
        · left; simp [h]
        · rcases ih.all i (by omega) with h | h | h <;> simp [h]
      · intro i hi
        simp only [List.mem_append, List.mem_cons, List.not_mem_nil, reduceCtorEq, or_false] at hi ⊢
        have := ih.gone i hi
        refine ⟨?_, by omega⟩
        rintro (h | h)
        · omega
        · exact this.1 h
      · simp only [List.filterMap_append, ih.ord, List.range_succ]; rfl
    case cancel c =>
      unfold cancel at he
      split at he
      · simp only [Option.some.injEq] at he; subst he
        have hk : ∀ i, key (s.log ++ [.cancel c]) i = key s.log i := by
          intro i; unfold key; simp
        constructor
        · exact ih.sorted.imp (by intro a b; simp only; rw [hk, hk]; exact id)
        · exact ih.lt
        · intro i; simpa using ih.ev i
        · intro i; simpa using ih.back i
        · intro i; simpa using ih.one i
        · intro i
          simp only [List.mem_append, List.mem_singleton, Ev.cancel.injEq]
          rw [← ih.can i]
          split <;> simp_all
        · intro i hi
          rcases ih.all i hi with h | h | h <;> simp [h]
        · intro i; simpa using ih.gone i
        · simp [List.filterMap_append, ih.ord]
      · cases he
    case pop =>
      split at he
      · unfold pop at he
        split at he
        · cases he
        · rename_i i q hq
          have hs := ih.sorted
          rw [hq, List.pairwise_cons] at hs
          have hnq : i ∉ q := by
            intro hm
            have := hs.1 i hm
            omega
          have hil : i < s.next := ih.lt i (by simp [hq])
          split at he
          · rename_i hc
            simp only [Option.some.injEq] at he; subst he
            have hk : ∀ j, key (s.log ++ [.skip i]) j = key s.log j := by
              intro j; unfold key; simp
            constructor
            · exact hs.2.imp (by intro a b; simp only; rw [hk, hk]; exact id)
            · intro j hj; exact ih.lt j (by simp [hq, hj])
            · intro i; simpa using ih.ev i
            · intro i; simpa using ih.back i
            · intro i; simpa using ih.one i
            · intro i; simpa using ih.can i
            · intro j hj
              rcases ih.all j hj with h | h | h
              · rw [hq] at h
                rcases List.mem_cons.1 h with rfl | h
                · right; right
                  simp [(ih.can j).1 hc]
                · simp [h]
              · simp [h]
              · simp [h]
            · intro j hj
              simp only [List.mem_append, List.mem_singleton, reduceCtorEq, or_false] at hj
              have := ih.gone j hj
              rw [hq] at this
              exact ⟨fun h => this.1 (by simp [h]), this.2⟩
            · simp [List.filterMap_append, ih.ord]
          · rename_i hc
            simp only [Option.some.injEq] at he; subst he
            have hk : ∀ j, key (s.log ++ [.run i]) j = key s.log j := by
              intro j; unfold key; simp
            constructor
            · exact hs.2.imp (by intro a b; simp only; rw [hk, hk]; exact id)
            · intro j hj; exact ih.lt j (by simp [hq, hj])
            · intro i; simpa using ih.ev i
            · intro i; simpa using ih.back i
            · intro i; simpa using ih.one i
            · intro i; simpa using ih.can i
            · intro j hj
              rcases ih.all j hj with h | h | h
              · rw [hq] at h
                rcases List.mem_cons.1 h with rfl | h
                · right; left; simp
                · simp [h]
              · simp [h]
              · simp [h]
            · intro j hj
              simp only [List.mem_append, List.mem_singleton, Ev.run.injEq] at hj
              rcases hj with hj | rfl
              · have := ih.gone j hj
                rw [hq] at this
                exact ⟨fun h => this.1 (by simp [h]), this.2⟩
              · exact ⟨hnq, hil⟩
            · simp [List.filterMap_append, ih.ord]
      · cases he
    case drained =>
      split at he
      · cases he
        exact ⟨ih.sorted, ih.lt, ih.ev, ih.back, ih.one, ih.can, ih.all, ih.gone, ih.ord⟩
      · cases he
    case raise =>
      split at he
      · cases he; exact ih.quiet rfl (Or.inr rfl) rfl rfl rfl
      · cases he
    all_goals
      split at he
      · simp only [Option.some.injEq, outer] at he
        subst he
        split
        · exact ih.quiet rfl (Or.inl rfl) rfl rfl rfl
        · exact ⟨ih.sorted, ih.lt, ih.ev, ih.back, ih.one, ih.can, ih.all, ih.gone, ih.ord⟩
      · cases he

/-- What a step that records `run i` found. -/
theorem run_step {s0 s1 : St} {a : Act} {i : Nat} (he : exec s0 a = some s1)
    (hl : s1.log = s0.log ++ [.run i]) : ∃ q, s0.queue = i :: q ∧ s0.cancelled i = false := by
  cases a <;> simp only [exec, cancel, pop, outer, schedule, scheduleLeft] at he
  all_goals repeat' split at he
  all_goals first
    | cases he; done
    | (cases he; simp at hl; done)
    | (simp only [Option.some.injEq] at he; subst he; split at hl <;> simp at hl; done)
    | skip
  rename_i j q hq hc
  cases he
  simp at hl
  subst hl
  exact ⟨q, hq, by simpa using hc⟩

theorem ret_step {s0 s1 : St} {a : Act} (he : exec s0 a = some s1)
    (hl : s1.log = s0.log ++ [.ret]) : s0.queue = [] := by
  cases a <;> simp only [exec, cancel, pop, outer, schedule, scheduleLeft] at he
  all_goals repeat' split at he
  all_goals first
    | cases he; done
    | assumption
    | (cases he; simp at hl; done)
    | (simp only [Option.some.injEq] at he; subst he; split at hl
       · assumption
       · simp at hl)
    | skip

end Loop

/-- Callback `i` has been scheduled, in either way. -/
def scheduled (log : List Ev) (i : Nat) : Prop := Ev.sched i ∈ log ∨ Ev.schedL i ∈ log

/-- **C27.** A callback runs at most once, only after it was scheduled, and not once it has been
cancelled. -/
theorem C27_runs_at_most_once {s : St} (h : Reach s) {pre post : List Ev} {i : Nat}
    (hl : s.log = pre ++ .run i :: post) :
    scheduled pre i ∧ Ev.cancel i ∉ pre ∧ Ev.run i ∉ pre ∧ Ev.run i ∉ post := by
  have key : ∀ {s : St} (h : Reach s) {pre post : List Ev}, s.log = pre ++ .run i :: post →
      scheduled pre i ∧ Ev.cancel i ∉ pre ∧ Ev.run i ∉ pre := by
    intro s h pre post hl
    obtain ⟨s0, a, s1, hr, rfl, he, hl1⟩ := h.split hl
    have inv := linv hr
    obtain ⟨q, hq, hc⟩ := run_step he hl1
    refine ⟨inv.back i (inv.lt i (by simp [hq])), ?_, ?_⟩
    · rw [← inv.can i, hc]; simp
    · intro hm; exact (inv.gone i hm).1 (by simp [hq])
  obtain ⟨h1, h2, h3⟩ := key h hl
  refine ⟨h1, h2, h3, fun hm => ?_⟩
  obtain ⟨a, b, rfl⟩ := List.append_of_mem hm
  have := key h (pre := pre ++ .run i :: a) (post := b) (by simp [hl])
  exact this.2.2 (by simp)

/-- **C27.** The loop returns only when nothing is left: every callback scheduled until then has
run or has been cancelled. -/
theorem C27_returns_only_when_empty {s : St} (h : Reach s) {pre post : List Ev} {i : Nat}
    (hl : s.log = pre ++ .ret :: post) (hi : scheduled pre i) :
    Ev.run i ∈ pre ∨ Ev.cancel i ∈ pre := by
  obtain ⟨s0, a, s1, hr, rfl, he, hl1⟩ := h.split hl
  have inv := linv hr
  have hq := ret_step he hl1
  rcases inv.all i (inv.ev i hi) with h | h | h
  · rw [hq] at h; cases h
  · exact Or.inl h
  · exact Or.inr h.2

/-- **C27.** Callbacks run in the order they were scheduled: when `j`, scheduled at the end, runs,
every callback scheduled earlier has run or has been cancelled. -/
theorem C27_first_in_first_out {s : St} (h : Reach s) {a b post : List Ev} {i j : Nat}
    (hl : s.log = a ++ .sched j :: b ++ .run j :: post) (hi : scheduled a i) :
    Ev.run i ∈ a ++ .sched j :: b ∨ Ev.cancel i ∈ a ++ .sched j :: b := by
  obtain ⟨s0, act, s1, hr, hl0, he, hl1⟩ := h.split hl
  have inv := linv hr
  rw [← hl0] at hl1
  obtain ⟨q, hq, hc⟩ := run_step he hl1
  rw [← hl0]
  have hia : scheduled s0.log i := by
    unfold scheduled at *; rw [hl0]; rcases hi with hi | hi <;> simp [hi]
  have hlt : i < j := by
    obtain ⟨t0, act', t1, tr, tl0, te, tl1⟩ := h.split (pre := a) (post := b ++ .run j :: post)
      (by simpa using hl)
    have tinv := linv tr
    have := tinv.ev i (by rw [tl0]; exact hi)
    -- the step schedules `t0.next`
    cases act' <;> simp only [exec, Loop.cancel, pop, outer, schedule, scheduleLeft] at te
    all_goals repeat' split at te
    all_goals first
      | cases te; done
      | (cases te; simp [tl0] at tl1; done)
      | (simp only [Option.some.injEq] at te; subst te; split at tl1 <;> simp [tl0] at tl1; done)
      | (cases te; simp only [tl0, List.append_cancel_left_eq, List.cons.injEq, Ev.sched.injEq,
          and_true] at tl1; omega)
  rcases inv.all i (inv.ev i hia) with h | h | h
  · exfalso
    rw [hq] at h
    have hs := inv.sorted
    rw [hq, List.pairwise_cons] at hs
    rcases List.mem_cons.1 h with h | h
    · omega
    · have h1 := hs.1 i h
      have hj : Ev.sched j ∈ s0.log := by rw [hl0]; simp
      have hjl : Ev.schedL j ∉ s0.log := fun h => inv.one j ⟨hj, h⟩
      unfold key at h1
      rw [if_neg hjl] at h1
      split at h1 <;> omega
  · exact Or.inl h
  · exact Or.inr h.2

/-- **C27.** A callback scheduled at the front goes before everything that is waiting at that
moment: when a callback `i` scheduled earlier runs later, `j` has run or been cancelled. -/
theorem C27_front_goes_first {s : St} (h : Reach s) {a b post : List Ev} {i j : Nat}
    (hl : s.log = a ++ .schedL j :: b ++ .run i :: post) (hi : scheduled a i) :
    Ev.run j ∈ b ∨ Ev.cancel j ∈ b := by
  obtain ⟨s0, act, s1, hr, hl0, he, hl1⟩ := h.split hl
  have inv := linv hr
  rw [← hl0] at hl1
  obtain ⟨q, hq, hc⟩ := run_step he hl1
  obtain ⟨t0, act', t1, tr, tl0, te, tl1⟩ := h.split (pre := a) (post := b ++ .run i :: post)
    (by simpa using hl)
  have tinv := linv tr
  have hin := tinv.ev i (by rw [tl0]; exact hi)
  have hjn : j = t0.next := by
    cases act' <;> simp only [exec, Loop.cancel, pop, outer, schedule, scheduleLeft] at te
    all_goals repeat' split at te
    all_goals first
      | cases te; done
      | (cases te; simp [tl0] at tl1; done)
      | (simp only [Option.some.injEq] at te; subst te; split at tl1 <;> simp [tl0] at tl1; done)
      | (cases te; simp only [tl0, List.append_cancel_left_eq, List.cons.injEq, Ev.schedL.injEq,
          and_true] at tl1; omega)
  have hjl : Ev.schedL j ∈ s0.log := by rw [hl0]; simp
  -- nothing about `j` happened before it was scheduled
  have hra : Ev.run j ∉ a := by
    intro hm; rw [← tl0] at hm; have := (tinv.gone j hm).2; omega
  have hca : Ev.cancel j ∉ a := by
    intro hm
    obtain ⟨x, y, hxy⟩ := List.append_of_mem hm
    obtain ⟨u0, au, u1, ur, ul0, ue, ul1⟩ := tr.split (pre := x) (post := y) (by rw [tl0, hxy])
    have hlt : j < u0.next := by
      cases au <;> simp only [exec, Loop.cancel, pop, outer, schedule, scheduleLeft] at ue
      all_goals repeat' split at ue
      all_goals first
        | cases ue; done
        | (cases ue; simp [ul0] at ul1; done)
        | (simp only [Option.some.injEq] at ue; subst ue; split at ul1 <;> simp [ul0] at ul1; done)
        | (cases ue; simp only [ul0, List.append_cancel_left_eq, List.cons.injEq, Ev.cancel.injEq,
            and_true] at ul1; omega)
    have := (linv ur).back j hlt
    have h2 : scheduled t0.log j := by
      rw [tl0, hxy]; unfold scheduled; rw [ul0] at this
      rcases this with h | h <;> simp [h]
    have := tinv.ev j h2
    omega
  have hmem : ∀ e : Ev, e ∈ s0.log → e ∉ a → e ≠ .schedL j → e ∈ b := by
    intro e he1 he2 he3
    rw [hl0] at he1
    simp only [List.mem_append, List.mem_cons] at he1
    rcases he1 with h | h | h
    · exact absurd h he2
    · exact absurd h he3
    · exact h
  rcases inv.all j (inv.ev j (Or.inr hjl)) with h | h | h
  · exfalso
    have hs := inv.sorted
    rw [hq, List.pairwise_cons] at hs
    rw [hq] at h
    rcases List.mem_cons.1 h with h | h
    · omega
    · have h1 := hs.1 j h
      unfold key at h1
      rw [if_pos hjl] at h1
      split at h1 <;> omega
  · exact Or.inl (hmem _ h hra (by simp))
  · exact Or.inr (hmem _ h.2 hca (by simp))

example : (run {} [.schedule, .schedule, .call, .pop, .scheduleLeft, .schedule, .cancel 1, .pop, .pop,
      .pop, .drained, .back]).map (·.log) =
    some [.sched 0, .sched 1, .run 0, .schedL 2, .sched 3, .cancel 1, .run 2, .skip 1, .run 3,
      .ret] := by decide

end Verif
