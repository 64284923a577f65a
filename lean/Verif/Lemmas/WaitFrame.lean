import Verif.Lemmas.Wait

/-! What the call's own code does to the tasks. -/

namespace Verif.Sched

theorem api_exec {w w' : World} {a : Act} {r : Res} (h : exec w a = some (w', r)) : api w a = w' := by
  unfold api; rw [h]

theorem exec_simple {w : World} {a : Act} (hs : simple a = true) (hi : w.inside = true)
    (hh : w.halted = false) : ∃ r, exec w a = some (api w a, r) := by
  rcases api_cases w a with h | ⟨h, -⟩
  · exact h
  · exfalso
    cases a <;> simp [exec, hi, hh, simple] at h hs

theorem api_reach {w : World} {a : Act} (hr : Reach w) : Reach (api w a) := by
  rcases api_cases w a with ⟨r, he⟩ | ⟨-, he⟩
  · exact hr.exec he
  · rw [he]; exact hr

theorem api_cancel_other {w : World} {x u : Nat} (hr : Reach w) (hu : u ≠ x) :
    (api w (.cancel x)).task u = w.task u := by
  obtain ⟨D, hg⟩ := hr.good
  rcases api_cases w (.cancel x) with ⟨r, he⟩ | ⟨-, he⟩
  · rcases exec_cancel hg he with ⟨-, h, -⟩ | ⟨-, h, -⟩ | ⟨-, -, -, -, -, -, h⟩
    · rw [h]
    · rw [h]
    · exact h u hu
  · rw [he]

theorem cancels_other (l : List Nat) : ∀ {w : World}, Reach w → ∀ u, u ∉ l →
    (l.foldl (fun w t => api w (.cancel t)) w).task u = w.task u := by
  induction l with
  | nil => intro w _ u _; rfl
  | cons x l ih =>
    intro w hr u hu
    simp only [List.mem_cons, not_or] at hu
    rw [List.foldl_cons, ih (api_reach hr) u hu.2, api_cancel_other hr hu.1]

theorem cancels_effect (l : List Nat) : ∀ {w : World}, Reach w → w.inside = true → w.halted = false →
    l.Nodup → ∀ u ∈ l, (w.task u).state.isDone = false → (w.task u).state ≠ .running →
    ((l.foldl (fun w t => api w (.cancel t)) w).task u).state = .scheduled ∧
    ((l.foldl (fun w t => api w (.cancel t)) w).task u).exc = some .cancelled := by
  induction l with
  | nil => intro w _ _ _ _ u hu; cases hu
  | cons x l ih =>
    intro w hr hi hh hn u hu h1 h2
    rw [List.nodup_cons] at hn
    rw [List.foldl_cons]
    have hr' : Reach (api w (.cancel x)) := api_reach hr
    obtain ⟨-, f2, f3, -⟩ := api_frame (w := w) (a := .cancel x) rfl
    by_cases hux : u = x
    · subst hux
      rw [cancels_other l hr' u hn.1]
      obtain ⟨r, he⟩ := exec_simple (a := .cancel u) rfl hi hh
      obtain ⟨D, hg⟩ := hr.good
      rcases exec_cancel hg he with ⟨h, -⟩ | ⟨h, -⟩ | ⟨-, -, -, h3, h4, -⟩
      · rw [h] at h1; cases h1
      · exact absurd h h2
      · exact ⟨h3, h4⟩
    · have hul : u ∈ l := by
        rcases List.mem_cons.1 hu with h | h
        · exact absurd h hux
        · exact h
      have e := api_cancel_other (x := x) hr hux
      exact ih hr' (by rw [f2]; exact hi) (by rw [f3]; exact hh) hn.2 u hul (by rw [e]; exact h1)
        (by rw [e]; exact h2)

theorem set_other {e : Nat} {w : World} (hr : Reach w) {u : Nat}
    (h : ∀ k, (w.task u).state = .pending → (w.task u).tcb ≠ some (.event e, k)) :
    (api w (.setE e)).task u = w.task u := by
  obtain ⟨D, hg⟩ := hr.good
  rcases api_cases w (.setE e) with ⟨r, he⟩ | ⟨-, he⟩
  · unfold exec at he
    split at he
    · cases he
    cases hi : w.inside
    · simp [hi] at he
    simp only [hi, Option.some.injEq, Prod.mk.injEq] at he
    rw [← he.1]
    unfold setEvent
    rw [react_task_off]
    · rfl
    · intro hon
      obtain ⟨⟨k, v⟩, hm, hv⟩ := List.mem_map.1 hon
      simp only at hv; subst hv
      obtain ⟨h1, h2⟩ := (hg.inv.ok v (by simp)).reg _ k hm (hg.inv.gpiDead (by simp))
      exact h k h1 h2
  · rw [he]

theorem uncancel_other {w : World} {x u : Nat} (hu : u ≠ x) :
    (api w (.uncancel x)).task u = w.task u := by
  rcases api_cases w (.uncancel x) with ⟨r, he⟩ | ⟨-, he⟩
  · unfold exec at he
    split at he
    · cases he
    cases hi : w.inside
    · simp [hi] at he
    simp only [hi, Option.some.injEq, Prod.mk.injEq] at he
    rw [← he.1]
    simp [uncancel, World.setTask, upd_ne _ _ hu]
  · rw [he]

theorem null_other {D : Trig → Prop} {w w' : World} {r : Res} {p n : Nat} {rest : List Frame}
    (hg : Good D w) (hst : w.stack = .running p :: rest)
    (he : exec w (.await (.null n) false) = some (w', r)) :
    ∀ u, u ≠ p → w'.task u = w.task u := by
  have hc : w.cbs (.null n) = [] := hg.trg.trig (.null n)
  unfold exec at he
  split at he
  · cases he
  cases hi : w.inside
  · simp [hi] at he
  simp only [hi, hst, execCoro, awaitRefused, Bool.false_eq_true, if_false, Option.some.injEq,
    Prod.mk.injEq] at he
  obtain ⟨he, -⟩ := he
  subst he
  intro u hu
  unfold suspendOn
  split
  · simp [setOutcome, upd_ne _ _ hu]
  · simp only [register, World.addLog, World.setTask, hc, List.isEmpty_nil, if_true, prime, react,
      upd_self, List.nil_append, wakeAll, scheduleResume]
    simp [upd_ne _ _ hu]

theorem enter_active {w w' : World} {a : Act} {r : Res} (he : exec w a = some (w', r))
    (ha : a = .pop ∨ ∃ t, a = .cancelNow t) : w'.inside = true ∧ w'.halted = false := by
  unfold exec at he
  split at he
  · cases he
  rename_i hh
  have hh : w.halted = false := by simpa using hh
  rcases ha with rfl | ⟨t, rfl⟩
  · cases hi : w.inside
    · simp [hi] at he
    simp only [hi] at he
    split at he
    · split at he <;> cases he <;> exact ⟨rfl, hh⟩
    · cases he
  · cases hi : w.inside
    · simp [hi] at he
    simp only [hi, Option.some.injEq] at he
    unfold cancelNow at he
    split at he
    · cases he; exact ⟨hi, hh⟩
    split at he
    · cases he; exact ⟨hi, hh⟩
    split at he
    · cases he; exact ⟨hi, hh⟩
    · rename_i w1 hd
      have := detach_task hd
      cases he
      constructor
      · simp only [resume, World.setTask, bumpCancel, this.2.2.1]
        split <;> exact hi
      · simp only [resume, World.setTask, bumpCancel, this.2.2.2.1]
        split <;> exact hh

end Verif.Sched

namespace Verif.Wait

open Sched

/-- The effect of `cancel_remaining`. -/
theorem cancelRemaining_effect {s : WS} (hr : Sched.Reach s.w) (hi : s.w.inside = true)
    (hh : s.w.halted = false) (hn : s.remaining.Nodup)
    (hnd : ∀ t ∈ s.remaining, (s.w.task t).state.isDone = false ∧ (s.w.task t).state ≠ .running) :
    (∀ t, t ∉ s.remaining → (cancelRemaining s).w.task t = s.w.task t) ∧
    (s.cancelled = false → ∀ t ∈ s.remaining, ((cancelRemaining s).w.task t).state = .scheduled ∧
      ((cancelRemaining s).w.task t).exc = some .cancelled) := by
  unfold cancelRemaining
  split
  · rename_i hc
    exact ⟨fun _ _ => rfl, fun hc' => by rw [hc] at hc'; cases hc'⟩
  · exact ⟨fun t ht => cancels_other _ hr t ht,
      fun _ t ht => cancels_effect _ hr hi hh hn t ht (hnd t ht).1 (hnd t ht).2⟩

theorem cancelRemaining_fields (s : WS) : (cancelRemaining s).waiters = s.waiters ∧
    (cancelRemaining s).parent = s.parent ∧ (cancelRemaining s).remaining = s.remaining ∧
    (cancelRemaining s).phase = s.phase := by
  unfold cancelRemaining
  split <;> exact ⟨rfl, rfl, rfl, rfl⟩

/-- What one step of the call's own code does to the tasks, `v` being the scheduler's state before. -/
structure Own (s s' : WS) (v : World) : Prop where
  others : ∀ t, t ∉ s'.waiters → t ≠ s'.parent → s'.w.task t = v.task t
  cancels : s.cancelled = false → s'.cancelled = true → ∀ t ∈ s'.remaining,
    (s'.w.task t).state = .scheduled ∧ (s'.w.task t).exc = some .cancelled

theorem Own.plain (s : WS) (v : World) : Own s { s with w := v } v :=
  ⟨fun _ _ _ => rfl, fun h1 h2 => by dsimp only at h2; rw [h1] at h2; cases h2⟩

/-- A waiter that is left is not done. -/
theorem left_not_done {O A : List Nat} {p : Nat} {aw dr : Bool} {w : World} {t : Nat}
    (h : Live complete O A p aw dr w) (hq : quiet w = true) (ht : t ∈ O) (hA : t ∉ A) :
    (w.task t).state.isDone = false := by
  cases hd : (w.task t).state.isDone with
  | false => rfl
  | true =>
    rcases (h.own.done t ht).1 hd with h1 | ⟨how, h1⟩
    · exact absurd h1 hA
    · unfold quiet at hq; simp [h1] at hq

theorem doneCallback_own {s : WS} {t : Nat} {how : How}
    (hl : Live complete s.waiters (announced s.log ++ [t]) s.parent (decide (s.phase = .awaiting))
      (decide (s.phase = .draining)) s.w)
    (hst : s.w.stack = [.finishing t 1 how]) (hi : s.w.inside = true) (hh : s.w.halted = false)
    (hd : Data s) : Own s (doneCallback s t) s.w := by
  have hq : quiet s.w = true := by unfold quiet; simp only [hst]
  have hrem : s.remaining.erase t = s.waiters.filter (· ∉ announced s.log ++ [t]) := by
    rw [hd.rem, erase_filter hd.nd]
  obtain ⟨w2, hw2, hl2, hst2, hi2, hh2, ho2⟩ : ∃ w2,
      (if s.remaining.erase t = [] then api s.w (.setE complete) else s.w) = w2 ∧
      Live complete s.waiters (announced s.log ++ [t]) s.parent (decide (s.phase = .awaiting))
        (decide (s.phase = .draining)) w2 ∧ w2.stack = s.w.stack ∧ w2.inside = true ∧
        w2.halted = false ∧ ∀ u, u ≠ s.parent → w2.task u = s.w.task u := by
    refine ⟨_, rfl, ?_⟩
    split
    · obtain ⟨h1, h2⟩ := hl.set hq hi hh
      obtain ⟨f1, f2, f3, -⟩ := api_frame (w := s.w) (a := .setE complete) rfl
      refine ⟨h1, f1, f2.trans hi, f3.trans hh, fun u hu => set_other hl.calm.reach ?_⟩
      intro k h1 h2
      exact hu (hl.reg u k h1 h2).1
    · exact ⟨hl, rfl, hi, hh, fun _ _ => rfl⟩
  generalize hs2 : ({ s with remaining := s.remaining.erase t, log := s.log ++ [.ended t], w := w2 } : WS) = s2
  have hdc : doneCallback s t = if s2.first = none ∧ decides s2.mode s2.w t = true then
      cancelRemaining { s2 with first := some t } else s2 := by
    have : (if ({ s with remaining := s.remaining.erase t, log := s.log ++ [.ended t] } : WS).remaining = [] then
        { ({ s with remaining := s.remaining.erase t, log := s.log ++ [.ended t] } : WS) with
          w := api s.w (.setE complete) }
        else { s with remaining := s.remaining.erase t, log := s.log ++ [.ended t] }) = s2 := by
      rw [← hs2, ← hw2]
      dsimp only
      split <;> rfl
    unfold doneCallback
    dsimp only at this ⊢
    rw [this]
  rw [hdc]
  have f1 : s2.w = w2 := by rw [← hs2]
  have f2 : s2.waiters = s.waiters := by rw [← hs2]
  have f3 : s2.parent = s.parent := by rw [← hs2]
  have f4 : s2.remaining = s.remaining.erase t := by rw [← hs2]
  have f5 : s2.cancelled = s.cancelled := by rw [← hs2]
  split
  · obtain ⟨c1, c2⟩ := cancelRemaining_effect (s := { s2 with first := some t })
      (by dsimp only; rw [f1]; exact hl2.calm.reach) (by dsimp only; rw [f1]; exact hi2)
      (by dsimp only; rw [f1]; exact hh2)
      (by dsimp only; rw [f4, hrem]; exact hd.nd.filter _)
      (by
        dsimp only
        rw [f4, f1, hrem]
        intro u hu
        simp only [List.mem_filter, decide_eq_true_eq] at hu
        refine ⟨left_not_done hl2 (by rw [quiet_stack hst2]; exact hq) hu.1 hu.2, ?_⟩
        intro hr
        obtain ⟨D, hg⟩ := hl2.calm.reach.good
        rw [← hg.stk.run, hst2, hst] at hr
        simp at hr)
    obtain ⟨g1, g2, g3, g4⟩ := cancelRemaining_fields { s2 with first := some t }
    refine ⟨fun u h1 h2 => ?_, fun h1 _ u hu => ?_⟩
    · rw [g1] at h1
      rw [g2] at h2
      dsimp only at h1 h2 c1
      rw [c1 u ?_, f1]
      · exact ho2 u (by rw [← f3]; exact h2)
      · rw [f4, hrem]
        intro hm
        exact h1 (by rw [f2]; exact (List.mem_filter.1 hm).1)
    · rw [g3] at hu
      exact c2 (by dsimp only; rw [f5]; exact h1) u hu
  · refine ⟨fun u h1 h2 => ?_, fun h1 h2 => ?_⟩
    · rw [f1]; exact ho2 u (by rw [← f3]; exact h2)
    · rw [f5, h1] at h2; cases h2

theorem drain_own {s s' : WS} {rest : List Frame} (hr : Sched.Reach s.w)
    (hst : s.w.stack = .running s.parent :: rest) (h : drain s = some s') :
    s'.waiters = s.waiters ∧ s'.parent = s.parent ∧ s'.remaining = s.remaining ∧
    ∀ u, u ≠ s.parent → s'.w.task u = s.w.task u := by
  obtain ⟨D, hg⟩ := hr.good
  unfold drain at h
  split at h
  · cases h; exact ⟨rfl, rfl, rfl, fun _ _ => rfl⟩
  · split at h
    · cases h
    rename_i w' r he
    cases h
    exact ⟨rfl, rfl, rfl, null_other hg hst he⟩

theorem uncancel_own {s s' : WS} {rest : List Frame}
    (hl : Live complete s.waiters (announced s.log) s.parent false false s.w)
    (hst : s.w.stack = .running s.parent :: rest) (h : uncancelAndDrain s = some s') :
    s'.waiters = s.waiters ∧ s'.parent = s.parent ∧ s'.remaining = s.remaining ∧
    ∀ u, u ≠ s.parent → s'.w.task u = s.w.task u := by
  unfold uncancelAndDrain at h
  have hcur : s.w.current = some s.parent := by
    have := hl.calm.ok
    rw [hst] at this
    exact this.1
  rw [hcur] at h
  have k : Keeps complete s.w (api s.w (.uncancel s.parent)) := keeps_api hl.calm.reach rfl rfl
  obtain ⟨h1, h2, h3, h4⟩ := drain_own (s := { s with w := api s.w (.uncancel s.parent) })
    (api_reach hl.calm.reach) (by rw [← hst]; exact k.stack) h
  exact ⟨h1, h2, h3, fun u hu => (h4 u hu).trans (uncancel_other hu)⟩

theorem goOn_own {s s' : WS} {rest : List Frame}
    (hl : Live complete s.waiters (announced s.log) s.parent (decide (s.phase = .awaiting))
      (decide (s.phase = .draining)) s.w)
    (hst : s.w.stack = .running s.parent :: rest) (hi : s.w.inside = true) (hh : s.w.halted = false)
    (hd : Data s) (hph : s.phase.inside = true) (h : goOn s = some s') : Own s s' s.w := by
  have hq : quiet s.w = true := by unfold quiet; rw [hst]
  obtain ⟨D, hg⟩ := hl.calm.reach.good
  have hrun : (s.w.task s.parent).state = .running := (hg.stk.run _).1 (by simp [hst])
  have hl0 := hl.resumed (by rw [hrun]; simp)
  have hidle : s.phase ≠ .idle := by rintro hx; rw [hx] at hph; cases hph
  unfold goOn at h
  cases hp : s.phase <;> rw [hp] at hph <;> simp only [Phase.inside, Bool.false_eq_true] at hph
  · -- awaiting
    have hE := hl.onE (by simp [hp])
    unfold OnEvent at hE
    rw [hrun] at hE
    simp only [TState.isDone, Bool.false_eq_true, reduceCtorEq, false_and, or_true, true_and, false_or] at hE
    rcases hE with ⟨h1, h2⟩ | h1
    · simp only [hp, h1, Option.some.injEq] at h
      subst h
      exact ⟨fun _ _ _ => rfl, fun h1 h2 => by dsimp only at h2; rw [h1] at h2; cases h2⟩
    · simp only [hp, h1] at h
      rw [← hp] at h
      obtain ⟨a1, a2, a3, a4, a5, a6⟩ := thrown_inv (e := some .cancelled) hl0 hq hd (by rw [hp]; rfl)
      obtain ⟨c1, c2⟩ := cancelRemaining_effect
        (s := { s with log := s.log ++ [.thrown (some .cancelled)] }) hl.calm.reach hi hh
        (by dsimp only; rw [hd.rem]; exact hd.nd.filter _)
        (by
          dsimp only
          rw [hd.rem]
          intro u hu
          simp only [List.mem_filter, decide_eq_true_eq] at hu
          refine ⟨left_not_done hl hq hu.1 hu.2, ?_⟩
          intro hr
          rw [← hg.stk.run, hst] at hr
          have hok := hl.calm.ok
          rw [hst] at hok
          rcases List.mem_cons.1 hr with hr | hr
          · cases hr
            exact (hd.ne hidle).2 hu.1
          · exact hok.2 u hr)
      obtain ⟨g1, g2, g3, g4⟩ := cancelRemaining_fields { s with log := s.log ++ [.thrown (some .cancelled)] }
      dsimp only at c1 c2 g1 g2 g3 g4
      obtain ⟨i1, i2, i3, i4⟩ := uncancel_own a1 (by rw [a3.stack, a6]; exact hst) h
      rw [g2] at i4
      refine ⟨fun u h1 h2 => ?_, fun h1 _ u hu => ?_⟩
      · rw [i1, g1] at h1
        rw [i2, g2] at h2
        rw [i4 u h2, c1 u]
        rw [hd.rem]
        intro hm
        exact h1 ((List.mem_filter.1 hm).1)
      · rw [i3, g3] at hu
        rw [i4 u ?_]
        · exact c2 h1 u hu
        · rintro rfl
          rw [hd.rem] at hu
          exact (hd.ne hidle).2 (List.mem_filter.1 hu).1
  · -- draining
    have hN := hl.onN (by simp [hp])
    unfold OnNull at hN
    rw [hrun] at hN
    simp only [TState.isDone, Bool.false_eq_true, reduceCtorEq, or_true, true_and, false_or] at hN
    have hc := (hd.drain hp).1
    rcases hN with h1 | h1
    · simp only [hp, h1] at h
      obtain ⟨i1, i2, i3, i4⟩ := drain_own hl.calm.reach hst h
      exact ⟨fun u _ h2 => i4 u (by rw [← i2]; exact h2), fun h1 => by rw [hc] at h1; cases h1⟩
    · simp only [hp, h1] at h
      obtain ⟨i1, i2, i3, i4⟩ := uncancel_own hl0 hst h
      exact ⟨fun u _ h2 => i4 u (by rw [← i2]; exact h2), fun h1 => by rw [hc] at h1; cases h1⟩

theorem starts_other {p : Nat} (l : List Nat) : ∀ {w : World} {O : List Nat},
    Live complete O [] p false false w → quiet w = true → w.inside = true → w.halted = false →
    l.Nodup → (∀ t ∈ l, w.task t = {}) → ∀ u, u ∉ l →
    (l.foldl (fun w t => api (api w (.addCb t)) (.startNext t)) w).task u = w.task u := by
  induction l with
  | nil => intro w O _ _ _ _ _ _ u _; rfl
  | cons x l ih =>
    intro w O h hq hi hh hn hf u hu
    simp only [List.mem_cons, not_or] at hu
    obtain ⟨h1, k1⟩ := starts_live [x] h hq hi hh (by simp) (fun t ht => hf t (by simp_all))
    simp only [List.foldl_cons, List.foldl_nil] at h1 k1
    rw [List.nodup_cons] at hn
    have hne : ∀ t, t ≠ x → (api (api w (.addCb x)) (.startNext x)).task t = w.task t := by
      intro t ht
      have hact : ∀ v : World, (api v (.startNext x)).task t = v.task t := by
        intro v
        rcases api_cases v (.startNext x) with ⟨r, he⟩ | ⟨-, he⟩
        · unfold Sched.exec at he
          split at he
          · cases he
          cases hi : v.inside
          · simp [hi] at he
          simp only [hi, Option.some.injEq] at he
          unfold startNext at he
          split at he
          · rw [← (Prod.mk.inj he).1]
          · rw [← (Prod.mk.inj he).1]; simp [scheduleLeft, World.addLog, upd_ne _ _ ht]
        · rw [he]
      rw [hact]
      rcases api_cases w (.addCb x) with ⟨r, he⟩ | ⟨-, he⟩
      · unfold Sched.exec at he
        simp only [hh, hi, Bool.false_eq_true, if_false, Option.some.injEq, Prod.mk.injEq] at he
        rw [← he.1]
        unfold addDoneCb
        dsimp only
        split <;> simp [World.addLog, upd_ne _ _ ht]
      · rw [he]
    rw [List.foldl_cons, ih h1 (by rw [k1.quiet]; exact hq) (by rw [k1.inside]; exact hi)
      (by rw [k1.halted]; exact hh) hn.2 ?_ u hu.2, hne u hu.1]
    intro t ht
    rw [hne t (by rintro rfl; exact hn.1 ht)]
    exact hf t (by simp [ht])

theorem start_own {s s' : WS} {p : Nat} {ts : List Nat} {m : Mode} {rest : List Frame} (h : WInv s)
    (hst : s.w.stack = .running p :: rest) (hid : s.phase = .idle) (hi : s.w.inside = true)
    (hh : s.w.halted = false) (hnd : ts.Nodup) (hfresh : ∀ t ∈ ts, s.w.task t = {})
    (he : start s p ts m = some s') :
    Own s s' s.w ∧ s'.waiters = ts ∧ s'.parent = p ∧ s'.mode = m := by
  obtain ⟨hw, hlog⟩ := h.data.idle hid
  have hq : quiet s.w = true := by unfold quiet; rw [hst]
  obtain ⟨D, hg⟩ := h.live.calm.reach.good
  have hrun : (s.w.task p).state = .running := (hg.stk.run _).1 (by simp [hst])
  have hp : p ∉ ts := by
    intro hm; rw [hfresh p hm] at hrun; cases hrun
  have hl := h.live
  rw [hw, hlog, hid] at hl
  have hl0 : Live complete [] [] p false false s.w :=
    ⟨hl.calm, hl.tidy, fun t k a b => absurd (hl.reg t k a b).2 (by simp), by simp, by simp, hl.own⟩
  have hf0 : s.w.fired complete = false := by
    cases hf : s.w.fired complete
    · rfl
    · exact absurd hid (h.data.fired.1 hf).1
  have hnr : ((ts.reverse).Nodup) := (List.reverse_perm ts).nodup_iff.2 hnd
  have hfr : ∀ t ∈ ts.reverse, s.w.task t = {} := fun t ht => hfresh t (List.mem_reverse.1 ht)
  obtain ⟨h1, k1⟩ := starts_live ts.reverse hl0 hq hi hh hnr hfr
  have ho := starts_other ts.reverse hl0 hq hi hh hnr hfr
  rw [List.reverse_reverse, List.append_nil] at h1
  have hw1 : (enroll s p ts m).w =
      ts.reverse.foldl (fun w t => api (api w (.addCb t)) (.startNext t)) s.w := rfl
  rw [← hw1] at h1 k1 ho
  unfold start at he
  dsimp only at he
  generalize hs1 : enroll s p ts m = s1 at he h1 k1 ho
  have hsp : s1.parent = p := by subst hs1; rfl
  have hsw : s1.waiters = ts := by subst hs1; rfl
  have hsr : s1.remaining = ts := by subst hs1; rfl
  have hsm : s1.mode = m := by subst hs1; rfl
  have hsl : s1.log = [] := by subst hs1; exact hlog
  have hsc : s1.cancelled = s.cancelled := by subst hs1; rfl
  have hq1 : quiet s1.w = true := (k1.quiet).trans hq
  have hst1 : s1.w.stack = .running p :: rest := by rw [k1.stack]; exact hst
  have fin : ∀ (s2 : WS) (w' : World) (r : Res), s2.parent = p →
      Live complete ts [] p false false s2.w →
      s2.w.stack = .running p :: rest → s2.w.fired complete = false →
      Sched.exec s2.w (.await (.event complete) false) = some (w', r) →
      ∀ u, u ≠ p → w'.task u = s2.w.task u := by
    intro s2 w' r hp2 hl2 hst2 hf2 hx
    obtain ⟨D2, hg2⟩ := hl2.calm.reach.good
    have hc : s2.w.cbs (.event complete) = [] := by
      rw [List.eq_nil_iff_forall_not_mem]
      rintro ⟨hh, u⟩ hm
      obtain ⟨e1, e2⟩ := (hg2.inv.ok u (by simp)).reg _ _ hm (hg2.inv.gpiDead (by simp))
      exact absurd (hl2.reg u hh e1 e2).2 (by simp)
    exact (Queue.await_fresh hst2 hc hf2 hx).1
  split at he
  · cases he
  rename_i w' r hx
  cases he
  by_cases hmust : (s1.w.task p).mustCancel > 0
  · simp only [hmust, if_true] at hx ⊢
    obtain ⟨l2, k2⟩ := cancelRemaining_live (s := { s1 with log := s1.log ++ [.thrown none] })
      (A := []) (aw := false) (dr := false) (by dsimp only; rw [hsw, hsp]; exact h1) hq1
    obtain ⟨c1, c2⟩ := cancelRemaining_effect (s := { s1 with log := s1.log ++ [.thrown none] })
      h1.calm.reach (by dsimp only; rw [k1.inside]; exact hi) (by dsimp only; rw [k1.halted]; exact hh)
      (by dsimp only; rw [hsr]; exact hnd)
      (by
        dsimp only
        rw [hsr]
        intro u hu
        refine ⟨left_not_done h1 hq1 hu (by simp), ?_⟩
        rw [ne_eq, k1.running, hfresh u hu]
        simp)
    obtain ⟨g1, g2, g3, g4⟩ := cancelRemaining_fields { s1 with log := s1.log ++ [.thrown none] }
    have g5 : (cancelRemaining { s1 with log := s1.log ++ [.thrown none] }).mode = s1.mode := by
      unfold cancelRemaining; split <;> rfl
    generalize cancelRemaining { s1 with log := s1.log ++ [.thrown none] } = s2 at *
    dsimp only at g1 g2 g3 g4 c1 c2 l2 k2
    have hfin := fin s2 w' r (by rw [g2, hsp]) (by rw [hsw, hsp] at l2; exact l2)
      (by rw [k2.stack]; exact hst1) (by rw [k2.fired, k1.fired]; exact hf0) hx
    refine ⟨⟨fun u h1 h2 => ?_, fun h1 _ u hu => ?_⟩, ?_, ?_, ?_⟩
    · simp only [suspended, g1, g2, hsw, hsp] at h1 h2 ⊢
      rw [hfin u h2, c1 u (by rw [hsr]; exact h1), ho u (by simpa using h1)]
    · simp only [suspended, g3, hsr] at hu ⊢
      rw [hfin u (by rintro rfl; exact hp hu)]
      exact c2 (by rw [hsc]; exact h1) u (by rw [hsr]; exact hu)
    · simp [suspended, g1, hsw]
    · simp [suspended, g2, hsp]
    · simp [suspended, g5, hsm]
  · simp only [hmust, if_false] at hx ⊢
    have hfin := fin s1 w' r hsp h1 hst1 (by rw [k1.fired]; exact hf0) hx
    refine ⟨⟨fun u h1 h2 => ?_, fun h1 h2 => ?_⟩, ?_, ?_, ?_⟩
    · simp only [suspended, hsw, hsp] at h1 h2 ⊢
      rw [hfin u h2, ho u (by simpa using h1)]
    · simp only [suspended] at h2
      rw [hsc, h1] at h2; cases h2
    · simp [suspended, hsw]
    · simp [suspended, hsp]
    · simp [suspended, hsm]

/-- What the call's own code does in one step. -/
theorem exec_own {s s' : WS} {a : Act} (h : WInv s) (he : exec s (.sched a) = some s') :
    ∃ w' r, Sched.exec s.w a = some (w', r) ∧ Own s s' w' ∧ s'.waiters = s.waiters := by
  have hw' := he
  simp only [exec] at he
  split at he
  case isFalse => cases he
  rename_i hal
  split at he
  · cases he
  rename_i w' r hx
  refine ⟨w', r, hx, ?_⟩
  unfold allowed at hal
  rw [Bool.and_eq_true, Bool.or_eq_true] at hal
  obtain ⟨hq, hal⟩ := hal
  have hq : quiet s.w = true ∨ a = .cbStep := by simpa using hq
  have hoff : off complete a = true := by
    cases a with
    | await g f => cases g <;> first | rfl | exact hal
    | setE e => exact hal
    | clearE e => exact hal
    | _ => rfl
  have hsp : spares s.waiters a = true := by
    cases a with
    | kill t => simpa [spares] using hal
    | cancelNow t => simp only [Bool.and_eq_true] at hal; simpa [spares] using hal.1
    | _ => rfl
  have hcn : ∀ t, a = .cancelNow t → ∀ u, Frame.running u ∉ s.w.stack := by
    rintro t rfl u hu
    simp only [Bool.and_eq_true] at hal
    have := hal.2
    unfold nobodyRuns at this
    rw [List.all_eq_true] at this
    exact absurd (this _ hu) (by simp)
  obtain ⟨D, hg⟩ := h.live.calm.reach.good
  have hin : s.phase.inside = true ↔ (s.phase = .awaiting ∨ s.phase = .draining) := by
    cases s.phase <;> simp [Phase.inside]
  have hkeep : ∀ t, (s.w.task t).state.isDone = true → (w'.task t).state = (s.w.task t).state ∧
    (w'.task t).outcome = (s.w.task t).outcome := fun t ht => done_keeps h.live.calm.reach hx ht
  have hf : w'.fired complete = s.w.fired complete := by
    refine Queue.fired_step hg (exec_step hx).2 ?_ ?_
    · rintro rfl; simp [off] at hoff
    · rintro rfl; simp [off] at hoff
  have hdata := h.data.frame hf hkeep (Live.annDone h.live)
  have hgo : ∀ {s1 s2 : WS} {rest}, s1.w.stack = .running s1.parent :: rest →
      Live complete s1.waiters (announced s1.log) s1.parent false false s1.w →
      goOn s1 = some s2 → s2.waiters = s1.waiters := by
    intro s1 s2 rest i1 i2 i3
    have hun : ∀ {s1 s2 : WS}, uncancelAndDrain s1 = some s2 → s2.waiters = s1.waiters := by
      intro s1 s2 h
      have hdr : ∀ {s1 s2 : WS}, drain s1 = some s2 → s2.waiters = s1.waiters := by
        intro s1 s2 h
        unfold drain at h
        split at h
        · cases h; rfl
        · split at h <;> cases h; rfl
      unfold uncancelAndDrain at h
      split at h
      · cases h; rfl
      · have := hdr h; exact this
    have hdr : ∀ {s1 s2 : WS}, drain s1 = some s2 → s2.waiters = s1.waiters := by
      intro s1 s2 h
      unfold drain at h
      split at h
      · cases h; rfl
      · split at h <;> cases h; rfl
    unfold goOn at i3
    split at i3
    · cases i3; rfl
    · rw [hun i3, (cancelRemaining_fields _).1]
    · cases i3; simp [(cancelRemaining_fields _).1]
    · exact hdr i3
    · exact hun i3
    · cases i3; rfl
    · cases i3; rfl
  rcases h.live.act hx hoff (fun h1 h2 => absurd h2 (h.nr (hin.2 (by simpa using h1)))) hq hsp hcn with
    ⟨t, how, h1, rfl, h3, h4, h5, h6⟩ | ⟨h1, h2⟩
  · simp only [hook, h3, h1, if_true, Option.some.injEq] at he
    subst he
    obtain ⟨c1, c2⟩ := cb_frame hx h3 h4
    refine ⟨?_, ?_⟩
    · have := doneCallback_own (s := { s with w := w' }) h6 h4 c1 c2 hdata
      exact ⟨this.others, this.cancels⟩
    · unfold doneCallback
      dsimp only
      split <;> split <;> simp [(cancelRemaining_fields _).1]
  · have hgo' : ∀ rest, w'.stack = .running s.parent :: rest → s.phase.inside = true →
        (a = .pop ∨ ∃ t, a = .cancelNow t) →
        goOn { s with w := w' } = some s' → Own s s' w' ∧ s'.waiters = s.waiters := by
      intro rest i1 i2 i3 i4
      obtain ⟨c1, c2⟩ := enter_active hx i3
      have := goOn_own (s := { s with w := w' }) h2 i1 c1 c2 hdata i2 i4
      obtain ⟨D', hg'⟩ := h2.calm.reach.good
      have hrun : (w'.task s.parent).state = .running := (hg'.stk.run _).1 (by simp [i1])
      exact ⟨⟨this.others, this.cancels⟩, hgo (s1 := { s with w := w' }) i1 (h2.resumed (by rw [hrun]; simp)) i4⟩
    unfold hook at he
    split at he
    · rename_i t how rest hst _
      rw [if_neg (h1 t how rest hst)] at he
      cases he
      exact ⟨Own.plain s w', rfl⟩
    · rename_i t rest hst _
      split at he
      · rename_i hc
        obtain ⟨rfl, hc2⟩ := hc
        exact hgo' rest hst hc2 (Or.inl rfl) he
      · cases he
        exact ⟨Own.plain s w', rfl⟩
    · rename_i t rest hst _
      split at he
      · rename_i hc
        obtain ⟨rfl, hc2⟩ := hc
        exact hgo' rest hst hc2 (Or.inr ⟨_, rfl⟩) he
      · cases he
        exact ⟨Own.plain s w', rfl⟩
    · cases he
      exact ⟨Own.plain s w', rfl⟩

end Verif.Wait
