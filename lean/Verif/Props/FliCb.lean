import Verif.Lemmas.FliCbRun

/-!
# C140: callbacks of the FLI, whose objects and simulator processes are reused
-/

namespace Verif

open FliCb FliCbSpec

/-- **C140** (at most once). The function of a registration is called at most once, and not at all once the registration was removed, or
removed once it was called. -/
theorem C140_once {c : Cfg} {s : St} (h : Reach c s) (r : Nat) :
    s.log.count (.run r) ≤ 1 ∧ ¬ (.run r ∈ s.log ∧ .remove r ∈ s.log) := by
  obtain ⟨-, h2, h3, -⟩ := reach_inv h
  exact ⟨h3.runOnce r, fun hx => h2.excl r hx.1 hx.2⟩

/-- **C140** (the right function). Each run of a process by the simulator calls the function of the registration it is made for, and of no
other; and no memory is used after it was freed. -/
def C140_right_full : Prop := ∀ (c : Cfg) (s : St), Reach c s → ∀ r,
  CalledBySim r s.log ∧ SimCalls r s.log ∧ .dangling r ∉ s.log

/-- The claim holds of every registration that does not wait for a value change; and of all of them if `mti_Desensitize` withdraws the run
of a process that a signal event has already caused. -/
theorem C140_right_partial {c : Cfg} {s : St} (h : Reach c s) (r : Nat) (hs : c.withdraws = true ∨ .register .value r ∉ s.log) :
    CalledBySim r s.log ∧ SimCalls r s.log ∧ .dangling r ∉ s.log := by
  obtain ⟨-, h2, h3, -⟩ := reach_inv h
  refine ⟨h3.called r hs, h3.calls r hs, fun hd => ?_⟩
  have := h2.dang r hd
  rcases hs with hs | hs
  · rw [this.1] at hs; cases hs
  · exact hs this.2

/-- A reachable state from a list of steps. -/
theorem FliCb.reach_of {c : Cfg} {as : List Act} {s : St} (h : run c {} as = some s) : Reach c s := reach_run .init h

/-- If it does not: a value change is removed after the event, and another is registered, which takes the same object: it is called
although its signal did not change. -/
theorem C140_right_counterexample : ¬ C140_right_full := by
  intro h
  have key : ∃ s, run ⟨false⟩ {} [.register .value, .event 0, .remove 0, .register .value, .fire 0 true] = some s ∧
      s.log = [.register .value 0, .remove 0, .ended .value 0, .register .value 1, .fire 0 true, .run 1] := ⟨_, rfl, rfl⟩
  obtain ⟨s, h1, h2⟩ := key
  obtain ⟨j, p, h3, h4, -⟩ := (h _ s (reach_of h1) 1).1 5 (by rw [h2]; rfl)
  have : j = 4 := by omega
  subst this
  rw [h2] at h4
  cases h4

/-- And if no other is registered: the freed `PythonCallback` is used. -/
theorem C140_right_freed_counterexample : ∃ s, Reach ⟨false⟩ s ∧ .dangling 0 ∈ s.log := by
  have key : ∃ s, run ⟨false⟩ {} [.register .value, .event 0, .remove 0, .fire 0 true] = some s ∧ .dangling 0 ∈ s.log :=
    ⟨_, rfl, by decide⟩
  obtain ⟨s, h1, h2⟩ := key
  exact ⟨s, reach_of h1, h2⟩

/-- Reuse of an object: three registrations, one process, each called when the simulator wakes it. -/
example : ∃ s, run ⟨false⟩ {} [.register .timed, .remove 0, .register .value, .fire 0 true, .register .timed, .event 1, .fire 1 true, .ret,
    .fire 0 true] = some s ∧ s.n = 2 ∧ s.log = [.register .timed 0, .remove 0, .register .value 1, .fire 0 true, .ended .timed 0,
      .register .timed 2, .fire 1 true, .run 1, .ended .value 1, .fire 2 true, .run 2] := ⟨_, rfl, rfl, rfl⟩

/-- **C140** (wake-ups happen). A registration that does not wait for a value change is woken once at most. As long as it was not woken, and
no function is running, the simulator can wake it, and then its function is called, unless it was removed: then it is over. -/
theorem C140_wakes {c : Cfg} {s : St} (h : Reach c s) (r : Nat) (k : Kind) (hk : k ≠ .value) (hr : .register k r ∈ s.log) :
    s.log.countP (isFire r) ≤ 1 ∧
      ((∀ p, .fire r p ∉ s.log) → s.running = none → ∃ o, ∀ pass, ∃ s', exec c s (.fire o pass) = some s' ∧
        s'.log = s.log ++ [.fire r pass, if .remove r ∈ s.log then .ended k r else .run r]) := by
  obtain ⟨h1, h2, h3, -⟩ := reach_inv h
  have hlt := h2.lt.1 k r hr
  have hkd := (h2.regd r hlt k).1 hr
  have hnv : (s.obj (s.hdl r)).kind ≠ .value := by rw [hkd]; exact hk
  refine ⟨h3.fireOnce r (fun hv => hk (hkd ▸ (h2.regd r hlt .value).1 hv)), fun hf hx => ?_⟩
  have ha := h3.waiting r hlt hnv hf
  obtain ⟨i1, i2, i3, -⟩ := h1.armedHdl _ r ha
  refine ⟨s.hdl r, fun pass => ?_⟩
  cases hrm : (s.obj (s.hdl r)).removed with
  | true =>
    have hd : s.alive r = false := by
      apply Classical.byContradiction
      intro hx
      have := h1.notRemoved _ i1 i2 (by rw [i3]; simpa using hx) hnv
      rw [hrm] at this; cases this
    have hre : .remove r ∈ s.log := i3 ▸ h2.removed _ i1 i2 (i3.symm ▸ hd)
    refine ⟨_, by simp only [exec, hx, Option.isSome_none, Bool.false_eq_true, if_false, hnv, ha, St.set, St.ev, upd_ap, if_true, hrm]; rfl, ?_⟩
    simp [release, St.ev, hre, hkd, upd_ap]
  | false =>
    have hal : s.alive r = true := by
      apply Classical.byContradiction
      intro hx
      have := (h1.dead _ i1 i2 (by rw [i3]; simpa using hx)).2
      rw [hrm] at this; cases this
    have hre : .remove r ∉ s.log := by
      rcases h1.aliveCase r hal with h | h
      · exact (h2.heldClean r h).2
      · rw [hx] at h; cases h
    refine ⟨_, by simp only [exec, hx, Option.isSome_none, Bool.false_eq_true, if_false, hnv, ha, St.set, St.ev, upd_ap, if_true, hrm]; rfl, ?_⟩
    simp [callUp, St.ev, hre, upd_ap, i3, hal]

/-- **C140** (value changes happen). As long as the registration of a value change was neither called nor removed, the next event of its
signal with the value it waits for calls its function. -/
theorem C140_changes {c : Cfg} {s : St} (h : Reach c s) (r : Nat) (hr : .register .value r ∈ s.log) (hc : .run r ∉ s.log)
    (hd : .remove r ∉ s.log) (hx : s.running = none) :
    ∃ o s', exec c s (.event o) = some s' ∧ ∀ pass, ∃ s'', exec c s' (.fire o pass) = some s'' ∧
      s''.log = s.log ++ if pass then [.fire r true, .run r] else [.fire r false] := by
  obtain ⟨h1, h2, -, -⟩ := reach_inv h
  have hlt := h2.lt.1 _ r hr
  have hkd := (h2.regd r hlt _).1 hr
  have hh : s.held r = true := by
    rcases h2.fate r hlt with h | h | h
    · exact h
    · exact absurd h hc
    · exact absurd h hd
  obtain ⟨-, i1, i2, i3⟩ := h1.heldActive r hh
  have ha := h1.armedVal _ i1 i3 hkd
  rw [i2] at ha
  have hal := (h1.heldOk r hh).1
  refine ⟨s.hdl r, _, by simp only [exec, hkd, ha, Option.isSome_some, and_self, if_true]; rfl, fun pass => ?_⟩
  cases pass with
  | true =>
    refine ⟨_, by simp only [exec, St.set, St.ev, upd_ap, hx, Option.isSome_none, Bool.false_eq_true, if_false, if_true, hkd]; rfl, ?_⟩
    simp [callUp, upd_ap, St.ev, i2, hal]
  | false =>
    refine ⟨_, by simp only [exec, St.set, St.ev, upd_ap, hx, Option.isSome_none, Bool.false_eq_true, if_false, if_true, hkd]; rfl, ?_⟩
    simp

/-- A wake-up and a value change that wait, one after an object was reused. -/
example : ∃ s, run ⟨true⟩ {} [.register .readOnly, .fire 0 true, .ret, .register .readOnly, .register .value, .event 1, .fire 1 false] = some s ∧
    .register .readOnly 1 ∈ s.log ∧ (∀ p, .fire 1 p ∉ s.log) ∧ .register .value 2 ∈ s.log ∧ .run 2 ∉ s.log ∧ .remove 2 ∉ s.log ∧
    s.running = none := ⟨_, rfl, by decide, by decide, by decide, by decide, by decide, rfl⟩

/-- **C140** (when it is over). While no function is running, a registration is over, and its process free for another, exactly if its
function was called, or it was removed and, unless it waited for a value change, its wake-up happened. -/
theorem C140_over {c : Cfg} {s : St} (h : Reach c s) (hx : s.running = none) (k : Kind) (r : Nat) :
    .ended k r ∈ s.log ↔
      .register k r ∈ s.log ∧ (.run r ∈ s.log ∨ .remove r ∈ s.log ∧ (k = .value ∨ ∃ p, .fire r p ∈ s.log)) := by
  obtain ⟨h1, h2, h3, -⟩ := reach_inv h
  constructor
  · intro he
    have hlt := h2.lt.2.2.2.1 k r he
    obtain ⟨hkd, hna⟩ := (h2.ended r hlt k).1 he
    refine ⟨(h2.regd r hlt k).2 hkd, ?_⟩
    rcases h2.fate r hlt with h | h | h
    · exact absurd (h1.heldActive r h).2.2 hna
    · exact .inl h
    · refine .inr ⟨h, ?_⟩
      by_cases hk : k = .value
      · exact .inl hk
      · refine .inr (Classical.byContradiction fun hf => hna ?_)
        have := h3.waiting r hlt (by rw [hkd]; exact hk) (fun p hp => hf ⟨p, hp⟩)
        have := h1.armedHdl _ r this
        exact ⟨this.2.2.1, this.2.1⟩
  · rintro ⟨hr, hc⟩
    have hlt := h2.lt.1 k r hr
    have hkd := (h2.regd r hlt k).1 hr
    refine (h2.ended r hlt k).2 ⟨hkd, fun hact => ?_⟩
    have hn := h1.hdlOk r hlt
    have hheld : s.alive r = true → s.held r = true := by
      intro ha
      rcases h1.aliveCase r ha with h | h
      · exact h
      · rw [hx] at h; cases h
    cases hal : s.alive r with
    | true =>
      have := h2.heldClean r (hheld hal)
      rcases hc with hc | hc
      · exact this.1 hc
      · exact this.2 hc.1
    | false =>
      have hd := h1.dead _ hn hact.2 (by rw [hact.1]; exact hal)
      have hrm := h2.removed _ hn hact.2 (by rw [hact.1]; exact hal)
      rw [hact.1] at hrm
      rcases hc with hc | ⟨-, hc | ⟨p, hc⟩⟩
      · exact h2.excl r hc hrm
      · exact hd.1 (hkd.trans hc)
      · rcases h1.armedWake _ hn hact.2 hd.1 with ha | ha
        · rw [hact.1] at ha
          exact h2.fired _ r hd.1 ha.1 p hc
        · rw [hx] at ha; cases ha.2

/-- **C140** (no more processes than needed). The number of simulator processes of a kind is the largest number of registrations of that kind
that were not over at the same time: however long the simulation runs, none is created while one is free. -/
theorem C140_processes {c : Cfg} {s : St} (h : Reach c s) (k : Kind) : IsPeak k s.log (processes k s) :=
  (reach_inv h).2.2.2.peak k

/-- Four timers, never more than two at a time. -/
example : ∃ s, run ⟨true⟩ {} [.register .timed, .register .timed, .fire 0 true, .ret, .register .timed, .fire 1 true, .ret, .register .timed] =
    some s ∧ processes .timed s = 2 := ⟨_, rfl, rfl⟩

end Verif
