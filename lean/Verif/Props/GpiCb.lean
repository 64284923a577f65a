import Verif.Lemmas.GpiCbCalm

/-!
C83, C84: what becomes of the callbacks registered with the simulator.
-/

namespace Verif

open GpiCb GpiCbSpec

/-! ### Histories given as lists of steps -/

namespace GpiCb

instance (c : Cfg) (h : Nat) (s : St) (a : Act) : Decidable (calm c h s a) := by
  cases a <;> (simp only [calm]; infer_instance)

def allOk (c : Cfg) (ok : St → Act → Bool) : St → List Act → Bool
  | _, [] => true
  | s, a :: as => ok s a && match exec c s a with
    | some s' => allOk c ok s' as
    | none => false

theorem reachBy_of {c : Cfg} {ok : St → Act → Prop} {okB : St → Act → Bool}
    (hok : ∀ s a, okB s a = true → ok s a) :
    ∀ {as : List Act} {s s' : St}, ReachBy c ok s → allOk c okB s as = true → run c s as = some s' →
      ReachBy c ok s'
  | [], s, s', h, _, he => by cases he; exact h
  | a :: as, s, s', h, hb, he => by
    rw [run] at he
    rw [allOk, Bool.and_eq_true] at hb
    split at he
    · rename_i s1 hx
      rw [hx] at hb
      exact reachBy_of hok (h.step (hok _ _ hb.1) hx) hb.2 he
    · cases he

theorem allOk_true {c : Cfg} : ∀ {as : List Act} {s s' : St}, run c s as = some s' →
    allOk c (fun _ _ => true) s as = true
  | [], _, _, _ => rfl
  | a :: as, s, s', he => by
    rw [run] at he
    split at he
    · rename_i s1 hx
      rw [allOk, hx]
      exact allOk_true he
    · cases he

theorem reach_of {c : Cfg} {as : List Act} {s : St} (he : run c {} as = some s) : Reach c s :=
  reachBy_of (okB := fun _ _ => true) (fun _ _ _ => trivial) .init (allOk_true he) he

theorem calm_of {c : Cfg} {h : Nat} {as : List Act} {s : St} (he : run c {} as = some s)
    (hb : allOk c (fun s a => decide (calm c h s a)) {} as = true) : ReachBy c (calm c h) s :=
  reachBy_of (fun _ _ hx => of_decide_eq_true hx) .init hb he

end GpiCb

/-! ### C83 -/

/-- **C83.** The function of a callback is never called if the callback was removed, before or after. -/
theorem C83_not_after_removal {c : Cfg} {s : St} (hs : Reach c s) (h : Nat) :
    ¬ (.run h ∈ s.log ∧ .remove h ∈ s.log) := by
  rintro ⟨h1, h2⟩
  exact (ReachBy.inv hs).1.once h h1 h2

/-- **C83.** The function of a callback is called only if the simulator called back. -/
theorem C83_run_only_when_fired {c : Cfg} {s : St} (hs : Reach c s) (h : Nat) (hr : .run h ∈ s.log) :
    ∃ pass, .fire h pass ∈ s.log :=
  (ReachBy.inv hs).2.2.1.ranFired h hr

/-- **C83.** When the simulator has called back for a one-shot callback and control is with the simulator
again, the function has been called, unless Python removed the callback. -/
theorem C83_fired_is_run {c : Cfg} {s : St} (hs : Reach c s) (hx : s.reacting = false) (h : Nat)
    (hk : (s.obj h).kind = .oneShot) (pass : Bool) (hf : .fire h pass ∈ s.log) :
    .run h ∈ s.log ∨ .remove h ∈ s.log := by
  obtain ⟨-, q, o, -⟩ := ReachBy.inv hs
  have hq : s.queue = [] := by
    cases hc : c.queued with
    | true => exact (q.queued hc hx).1
    | false => exact q.direct hc
  have := o.fired h hk pass hf
  rw [hq] at this
  simpa using this

def GpiCb.cbRun1 : List Act :=
  [.register .oneShot, .register .oneShot, .fire 0 true true, .fire 1 true true,
      .remove 1 true, .ret true, .drain true true]

/-- Two timers: one fires and is run; in its function the other one is removed after it fired. -/
example : ∃ s, run ⟨true, false⟩ {} cbRun1 = some s ∧ Reach ⟨true, false⟩ s ∧ s.reacting = false ∧
    s.log = [.register 0, .register 1, .fire 0 true, .run 0, .fire 1 true, .remove 1] :=
  ⟨_, rfl, reach_of (as := cbRun1) rfl, rfl, rfl⟩

def GpiCb.cbRun2 : List Act :=
  [.register .oneShot, .remove 0 false, .fire 0 true true]

/-- Removing fails in the simulator, which calls back later: the function is not called. -/
example : ∃ s, run ⟨false, true⟩ {} cbRun2 = some s ∧
    Reach ⟨false, true⟩ s ∧ s.log = [.register 0, .remove 0, .fire 0 true] :=
  ⟨_, rfl, reach_of (as := cbRun2) rfl, rfl⟩

/-- **C83, full statement.** No callback is called more than once, and none is used after it was freed. -/
def C83_once_full : Prop :=
  ∀ c s, Reach c s → ∀ h, runs h s.log ≤ 1 ∧ .dangling h ∉ s.log

/-- A signal that a task awaits a change of changes twice while callbacks are queued: the callback is in
the queue twice, and the second time it has been freed. -/
theorem C83_once_counterexample_twice : ¬ C83_once_full := by
  intro hf
  have hr := reach_of (c := ⟨true, false⟩) (as := [.register .oneShot, .register .value, .fire 0 true true, .fire 1 true true,
    .fire 1 true true, .ret true, .drain true true, .ret true, .drain true true]) rfl
  exact (hf _ _ hr 1).2 (by decide)

/-- A value-change callback that is in the queue is removed: it is freed but the simulator still has it
and calls it at the next change. -/
theorem C83_once_counterexample_removed : ¬ C83_once_full := by
  intro hf
  have hr := reach_of (c := ⟨true, false⟩) (as := [.register .oneShot, .register .value, .fire 0 true true, .fire 1 true true,
    .remove 1 true, .ret true, .drain true true, .fire 1 true true]) rfl
  exact (hf _ _ hr 1).2 (by decide)

/-- Without the queue a signal that changes in the function of a callback waiting for its change makes that
function run again. -/
theorem C83_once_counterexample_nested : ¬ C83_once_full := by
  intro hf
  have hr := reach_of (c := ⟨false, false⟩) (as := [.register .value, .fire 0 true true, .fire 0 true true]) rfl
  exact absurd (hf _ _ hr 0).1 (by decide)

/-- **C83, partial**: for a callback that does not fire while it is queued or running and is not removed
while it is queued, if it is a value-change callback that is not removed from the simulator then. -/
theorem C83_once_partial {c : Cfg} {s : St} {h : Nat} (hs : ReachBy c (calm c h) s) :
    runs h s.log ≤ 1 ∧ .dangling h ∉ s.log :=
  ⟨(ReachBy.calm hs).once, (ReachBy.calm hs).safe⟩

def GpiCb.cbRun3 : List Act :=
  [.register .oneShot, .register .value, .register .value, .fire 0 true true,
      .fire 1 true true, .fire 2 true true, .remove 1 true, .ret true, .drain true true, .ret true, .drain true true,
      .fire 1 true true]

/-- The other callbacks may be treated in any way: here callback 1 is used after it was freed, 2 is not. -/
example : ∃ s, run ⟨true, false⟩ {} cbRun3 = some s ∧ ReachBy ⟨true, false⟩ (calm ⟨true, false⟩ 2) s ∧
    s.log = [.register 0, .register 1, .register 2, .fire 0 true, .run 0, .fire 1 true, .fire 2 true, .remove 1,
      .run 2, .fire 1 true, .dangling 1] :=
  ⟨_, rfl, calm_of (as := cbRun3) rfl (by decide), rfl⟩

theorem kind_back {c : Cfg} {s s' : St} {a : Act} {h : Nat} (hA : AInv s) (he : exec c s a = some s')
    (hk : (s'.obj h).kind = .oneShot) : (s.obj h).kind = .oneShot := by
  have h1 := hA.fresh
  replace he := exec_step he
  cases he <;> (try rename_i hx; cases hx) <;> simp only [upd_eq] at * <;> grind [Gone]

/-- **C83.** Where the simulator forgets a one-shot callback that fired (all VPI simulators but Verilator),
one-shot callbacks are called at most once and never used after they were freed, in every history. -/
theorem C83_one_shot_once {c : Cfg} (hc : c.recurring = false) {s : St} (hs : Reach c s) {h : Nat}
    (hk : (s.obj h).kind = .oneShot) : runs h s.log ≤ 1 ∧ .dangling h ∉ s.log := by
  have : CInv h s := by
    induction hs with
    | init => constructor <;> simp
    | @step s s' a hr _ he ih =>
      obtain ⟨iA, iQ, iO, -⟩ := ReachBy.inv hr
      have hk' := kind_back iA he hk
      refine (ih hk').step iA iQ iO ?_ he
      cases a with
      | fire h' pass ok =>
        rintro rfl
        simp only [exec] at he
        split at he
        · rename_i hreg
          have hno : ∀ p, .fire h' p ∉ s.log := fun p hp => by
            have := iO.quiet h' hk' hc p hp
            simp_all
          refine ⟨fun hq => ?_, fun hst => ?_⟩
          · obtain ⟨p, hp⟩ := iO.queueFired h' hq
            exact hno p hp
          · obtain ⟨⟨h2, q⟩, hm, rfl⟩ := List.mem_map.1 hst
            obtain ⟨p, hp⟩ := iO.ranFired _ (iA.stack _ q hm)
            exact hno p hp
        · cases he
      | remove h' ok => exact fun hh => .inr (.inl hk')
      | _ => trivial
  exact ⟨this.once, this.safe⟩

/-! ### C84 -/

/-- **C84, full statement.** Once control is with the simulator again, the function of a callback waiting
for an edge has been called for an edge that the simulator reported, unless Python removed the callback. -/
def C84_edge_seen_full : Prop :=
  ∀ c s, Reach c s → s.reacting = false → ∀ h, .fire h true ∈ s.log → .run h ∈ s.log ∨ .remove h ∈ s.log

/-- While callbacks are queued the value of the signal is only looked at later: a signal that rises and
falls in one reaction does not wake those who wait for a rising edge. -/
theorem C84_edge_seen_counterexample : ¬ C84_edge_seen_full := by
  intro hf
  have hr := reach_of (c := ⟨true, false⟩) (as := [.register .oneShot, .register .value, .fire 0 true true, .fire 1 true true,
    .ret true, .drain false true, .drain false true]) rfl
  exact absurd (hf _ _ hr rfl 1 (by decide)) (by decide)

/-- **C84, partial**: an edge reported while no callback is being reacted to, in every build. -/
theorem C84_edge_seen_partial {c : Cfg} {s s' : St} (hs : Reach c s) (hx : s.reacting = false) (h : Nat) (ok : Bool)
    (he : exec c s (.fire h true ok) = some s') : .run h ∈ s'.log ∨ .remove h ∈ s'.log := by
  obtain ⟨iA, -, -, iE⟩ := ReachBy.inv hs
  have h1 := iA.fresh
  have h4 := iA.removed
  have h2 := iE.dead
  have h3 := iA.data h
  replace he := exec_step he
  cases he with
  | queue => simp_all
  | fire _ _ _ _ hr hc hs =>
    cases hs <;> simp only [upd_same, List.mem_append] at * <;> grind

/-- **C84, partial**: in builds without the queue every reported edge is seen. -/
theorem C84_edge_seen_direct_partial {c : Cfg} (hc : c.queued = false) {s : St} (hs : Reach c s) (h : Nat)
    (hf : .fire h true ∈ s.log) : .run h ∈ s.log ∨ .remove h ∈ s.log := by
  have key : s.reacting = false ∧ (∀ h, .fire h true ∈ s.log → .run h ∈ s.log ∨ .remove h ∈ s.log) := by
    clear hf h
    induction hs with
    | init => simp
    | @step s s' a hr _ he ih =>
      have hE : ∀ h pass ok, a = .fire h pass ok → pass = true → .run h ∈ s'.log ∨ .remove h ∈ s'.log := by
        rintro h pass ok rfl rfl
        exact C84_edge_seen_partial hr ih.1 h ok he
      obtain ⟨i1, i2⟩ := ih
      replace he := exec_step he
      cases he <;> (try rename_i hx; cases hx) <;> (try replace hE := hE _ _ _ rfl) <;> constructor <;>
        simp only [List.mem_append, List.mem_singleton, reduceCtorEq, or_false, false_or, hc, i1] at * <;>
        grind
  exact key.2 h hf

def GpiCb.cbRun4 : List Act :=
  [.register .value, .fire 0 false true, .fire 0 true true, .ret true]

/-- A rising edge is awaited; the signal changes to 0 and then to 1. -/
example : ∃ s, run ⟨false, false⟩ {} cbRun4 = some s ∧
    Reach ⟨false, false⟩ s ∧ s.log = [.register 0, .fire 0 false, .fire 0 true, .run 0] :=
  ⟨_, rfl, reach_of (as := cbRun4) rfl, rfl⟩

/-- **C84.** The function of a callback waiting for an edge is called only if the signal has the value the
edge leads to: in builds without the queue, only if the simulator reported such an edge. -/
theorem C84_no_false_edge {c : Cfg} (hc : c.queued = false) {s : St} (hs : Reach c s) (h : Nat)
    (hk : (s.obj h).kind = .value) (hr : .run h ∈ s.log) : .fire h true ∈ s.log := by
  induction hs with
  | init => simp at hr
  | @step s s' a hs _ he ih =>
    have iA := (ReachBy.inv hs).1
    have f1 := iA.fresh h
    have f2 := iA.freshLog h
    replace he := exec_step he
    cases he <;> (try rename_i hx; cases hx) <;> simp only [upd_eq] at * <;> grind [Gone]

end Verif
