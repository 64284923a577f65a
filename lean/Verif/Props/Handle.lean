import Verif.Lemmas.Handle
/-!
# C46, C47: what is driven on the simulator's signals, and when
-/
namespace Verif
open Hdl Spec

namespace HandleEx
/-- A simulator that takes everything. -/
def env : Env := ⟨fun _ => false, fun _ => false, fun _ _ => none, true, false⟩
def plain : Plain env := ⟨fun _ _ => rfl, rfl, rfl⟩
/-- Two scalar signals and an 8-bit one. -/
def a : Obj := ⟨⟨0, []⟩, .leaf .logic⟩
def b : Obj := ⟨⟨1, []⟩, .leaf .logic⟩
def w : Obj := ⟨⟨2, []⟩, .leaf (.larray 8)⟩
def sim : Sim := fun _ => ⟨[.F0], 0, 0, []⟩
end HandleEx
open HandleEx (env plain)

/-- Every history of writes (any objects, any actions, any nesting of arrays) and phase changes
drives exactly what the specification `Spec.drives` says, in that order. -/
theorem C46_history (env : Env) (h : Plain env) (ops : List Op) (s : HS) (hp : s.pend = []) :
    (run env ops s).driven = s.driven ++ drives s.phase [] (ops.flatMap (events env)) :=
  refine_run h ops s hp

/-- Deposits made in one evaluation, then the read-write phase: the signals written are each driven
once, with the last value written to them, in the order of those last writes. `asked` are the signal
writes asked for, in order. Missing for the full property: writes of the same signal with an
immediate action in the same evaluation, for which it fails
(`C46_mixed_actions_counterexample`). -/
theorem C46_last_write_wins_partial (env : Env) (h : Plain env) (s : HS) (hs : s.phase = .other)
    (hp : s.pend = []) (ws : List (Obj × PyVal × Sim)) (asked : List Call)
    (ha : asked = ws.flatMap fun w => requestedBy env w.2.2 w.1 (.plain w.2.1)) :
    ∃ batch, (run env (ws.map (fun w => .set w.1 (.plain w.2.1) w.2.2) ++ [.react .readWrite]) s).driven
        = s.driven ++ batch ∧
      (batch.map Call.ref).Nodup ∧
      batch.Sublist asked ∧
      ∀ c, c ∈ batch ↔ ∃ pre post, asked = pre ++ c :: post ∧ c.ref ∉ post.map Call.ref := by
  refine ⟨keepLast asked, ?_, keepLast_nodup _, keepLast_sub _, mem_keepLast _⟩
  rw [refine_run h _ s hp, hs, List.flatMap_append]
  congr 1
  have e1 : (ws.map (fun w => Op.set w.1 (.plain w.2.1) w.2.2)).flatMap (events env) =
      asked.map .write := by
    rw [ha]
    clear ha
    induction ws with
    | nil => rfl
    | cons w ws ih =>
      rw [List.map_cons, List.flatMap_cons, List.flatMap_cons, List.map_append, ih]; rfl
  have hd : ∀ c ∈ asked, c.act = .deposit := by
    rw [ha]
    intro c hc
    obtain ⟨w, -, hw⟩ := List.mem_flatMap.1 hc
    exact requestedBy_act env w.2.2 w.1 (.plain w.2.1) c hw
  have key : ∀ (later l : List Call), (∀ c ∈ l, c.act = .deposit) →
      drives .other later (l.map .write ++ [.phase .readWrite]) = keepLast (later ++ l) := by
    intro later l hl
    induction l generalizing later with
    | nil => simp [drives]
    | cons c l ih =>
      have hc := hl c (by simp)
      simp only [List.map_cons, List.cons_append, drives, hc, if_true]
      rw [ih _ fun c hc => hl c (List.mem_cons_of_mem _ hc)]
      simp
  rw [e1]
  simpa [events] using key [] asked hd

/-- Two signals, the first written twice: it is driven once, last. -/
example : (run env [.set HandleEx.a (.plain (.int 0)) HandleEx.sim,
    .set HandleEx.b (.plain (.int 1)) HandleEx.sim,
    .set HandleEx.a (.plain (.int 1)) HandleEx.sim, .react .readWrite] .init).driven =
    [⟨⟨1, []⟩, .deposit, .bin ['1']⟩, ⟨⟨0, []⟩, .deposit, .bin ['1']⟩] := by decide +kernel

/-- C46 for writes with any action: in one evaluation a signal is driven at most once. -/
def C46_mixed_actions_full : Prop :=
  ∀ (env : Env) (s : HS) (ws : List (Obj × Arg × Sim)), Plain env → s.phase = .other → s.pend = [] →
    s.driven = [] →
    ((run env (ws.map (fun w => .set w.1 w.2.1 w.2.2) ++ [.react .readWrite]) s).driven.map
      Call.ref).Nodup

/-- A deposit followed by an `Immediate` write of the same signal: both are driven, and the older
value is driven last. -/
theorem C46_mixed_actions_counterexample : ¬ C46_mixed_actions_full := by
  intro H
  have := H env .init [(HandleEx.a, .deposit (.int 0), HandleEx.sim),
    (HandleEx.a, .immediate (.int 1), HandleEx.sim)] plain rfl rfl rfl
  revert this
  decide +kernel

/-- The value that stays is the one written first. -/
example : (run env [.set HandleEx.a (.deposit (.int 0)) HandleEx.sim,
    .set HandleEx.a (.immediate (.int 1)) HandleEx.sim, .react .readWrite] .init).driven =
    [⟨⟨0, []⟩, .noDelay, .bin ['1']⟩, ⟨⟨0, []⟩, .deposit, .bin ['0']⟩] := by decide +kernel

/-! ## C47 -/

/-- An argument that defers: a plain value or a `Deposit`. -/
def isDeposit : Arg → Bool
  | .plain _ => true
  | .deposit _ => true
  | _ => false

/-- An argument that does not: `Force`, `Freeze`, `Release`, `Immediate`. -/
def isDirect : Arg → Bool
  | .force _ => true
  | .freeze => true
  | .release => true
  | .immediate _ => true
  | _ => false

/-- A deposit outside the read-write phase drives nothing, and nothing is driven until the next
read-write phase is reached, whatever other deposits and phases come in between. -/
theorem C47_deposit_not_early (env : Env) (h : Plain env) (s : HS) (hs : s.phase ≠ .readWrite)
    (ops : List Op)
    (hops : ∀ op ∈ ops, (∃ o arg sim, op = .set o arg sim ∧ isDeposit arg = true) ∨
      ∃ p, op = .react p ∧ p ≠ .readWrite) :
    (run env ops s).driven = s.driven := by
  induction ops generalizing s with
  | nil => rfl
  | cons op ops ih =>
    have hop := hops op (by simp)
    have ht := fun op hop => hops op (List.mem_cons_of_mem _ hop)
    rw [run]
    rcases hop with ⟨o, arg, sim, rfl, hd⟩ | ⟨p, rfl, hp⟩
    · have e : ((step env (.set o arg sim) s).2).phase = s.phase ∧
          ((step env (.set o arg sim) s).2).driven = s.driven := by
        simp only [step, valueSet_spec h]
        split
        · exact ⟨rfl, rfl⟩
        · exact schedAll_deposits h _ s hs (fun c hc => by
            have := requestedBy_act env sim o arg c hc
            cases arg <;> simp [isDeposit] at hd <;> simpa [intent] using this)
      rw [ih _ (by rw [e.1]; exact hs) ht, e.2]
    · have : (step env (.react p) s).2 = { s with phase := p } := by
        cases p <;> simp [step, react] at hp ⊢
      rw [this, ih _ (by exact hp) ht]

/-- Three deposits and a change to another phase: nothing is driven. -/
example : (run env [.set HandleEx.a (.plain (.int 0)) HandleEx.sim,
    .set HandleEx.w (.deposit (.int 200)) HandleEx.sim, .react .readOnly,
    .react .other, .set HandleEx.a (.plain (.int 1)) HandleEx.sim] .init).driven = [] := by
  decide +kernel

/-- A deposit `c` is driven by the next read-write phase, with its value, provided no later deposit
of the same signal came before that phase: whatever else was written and whatever phases were
entered in between. The phase change itself raises nothing and leaves nothing pending. -/
theorem C47_deposit_applied_next (env : Env) (h : Plain env) (s : HS) (hs : s.phase = .other)
    (o : Obj) (l : Leaf) (ho : o.ty = .leaf l) (hc : env.isConst o.ref = false) (v : PyVal) (d : Datum)
    (hd : leafDatum l v = .ok d) (sim : Sim) (mid : List Op)
    (hrw : ∀ op ∈ mid, op ≠ .react .readWrite)
    (hmid : ∀ op ∈ mid, ∀ c, Ev.write c ∈ events env op → c.ref ≠ o.ref) :
    ∃ s' batch, run env (.set o (.plain v) sim :: mid) s = s' ∧
      react env .readWrite s' = (.ok (), ⟨.readWrite, [], false, s'.driven ++ batch⟩) ∧
      ⟨o.ref, .deposit, d⟩ ∈ batch ∧ (batch.filter fun c => c.ref = o.ref).length = 1 := by
  refine ⟨_, _, rfl, react_rw h _, ?_⟩
  have hstep : (step env (.set o (.plain v) sim) s).2 =
      { s with pend := dictPut ⟨o.ref, .deposit, d⟩ s.pend, cb := true } := by
    simp only [step, valueSet, hs, hc, dispatch, ho, setValue, hd, scheduleWrite, h.defers, h.primes]
    cases hcb : s.cb <;> simp [hs]
  rw [run, hstep]
  have inv : ∀ (mid : List Op) (s : HS), (∀ op ∈ mid, op ≠ .react .readWrite) →
      (∀ op ∈ mid, ∀ c, Ev.write c ∈ events env op → c.ref ≠ o.ref) → s.phase ≠ .readWrite →
      (run env mid s).pend.filter (fun c => c.ref = o.ref) = s.pend.filter fun c => c.ref = o.ref := by
    intro mid
    induction mid with
    | nil => intros; rfl
    | cons op mid ih =>
      intro s h1 h2 h3
      have h1' := h1 op (by simp)
      have h2' := h2 op (by simp)
      rw [run]
      have e : ((step env op s).2).phase ≠ .readWrite ∧
          ((step env op s).2).pend.filter (fun c => c.ref = o.ref) =
            s.pend.filter fun c => c.ref = o.ref := by
        rw [step_spec h]
        exact foldl_keeps h o.ref _ s (fun c hc => h2' c hc)
          (by cases op <;> simp [events] at h1' ⊢; exact Ne.symm h1') h3
      rw [ih _ (fun op hop => h1 op (List.mem_cons_of_mem _ hop))
        (fun op hop => h2 op (List.mem_cons_of_mem _ hop)) e.1, e.2]
  have key := inv mid { s with pend := dictPut ⟨o.ref, .deposit, d⟩ s.pend, cb := true } hrw hmid
    (by simp [hs])
  have e2 : (dictPut ⟨o.ref, .deposit, d⟩ s.pend).filter (fun c => c.ref = o.ref) =
      [⟨o.ref, .deposit, d⟩] := by
    simp [dictPut, List.filter_append, List.filter_filter]
  simp only [e2] at key
  refine ⟨?_, by rw [key]; rfl⟩
  have hm := List.mem_singleton_self (⟨o.ref, .deposit, d⟩ : Call)
  rw [← key] at hm
  exact (List.mem_filter.1 hm).1

/-- As long as deferred writes are pending, the read-write phase has been asked for, and it has not
been asked for otherwise: on every history from the start. -/
theorem C47_phase_requested (env : Env) (h : Plain env) (ops : List Op) :
    (run env ops .init).pend ≠ [] ↔ (run env ops .init).cb = true :=
  have := pend_inv h ops .init ⟨by simp [HS.init], by simp [HS.init]⟩
  ⟨this.1, this.2⟩

/-- `Force`, `Freeze`, `Release` and `Immediate` writes are driven at once, with the action they
stand for, in every phase but the read-only one; pending deposits stay as they are. -/
theorem C47_direct_at_once (env : Env) (h : Plain env) (s : HS) (hs : s.phase ≠ .readOnly) (sim : Sim)
    (o : Obj) (arg : Arg) (ha : isDirect arg = true) :
    (valueSet env sim o arg s).2 =
      { s with driven := s.driven ++ requestedBy env sim o arg } ∧
    ∀ c ∈ requestedBy env sim o arg, c.act = match arg with
      | .force _ => .force | .freeze => .force | .release => .release | _ => .noDelay := by
  have hact := requestedBy_act env sim o arg
  refine ⟨?_, fun c hc => by
    have := hact c hc; cases arg <;> simp [isDirect] at ha <;> simpa [intent] using this⟩
  rw [valueSet_spec h, if_neg hs]
  exact schedAll_direct h _ s (fun c hc => by
    have := hact c hc
    rw [this]; cases arg <;> simp [isDirect] at ha <;> simp [intent])

/-- For a scalar signal and a value it takes, `requestedBy` is that one write. -/
theorem C47_direct_scalar (env : Env) (h : Plain env) (s : HS) (hs : s.phase ≠ .readOnly) (sim : Sim)
    (o : Obj) (l : Leaf) (ho : o.ty = .leaf l) (hc : env.isConst o.ref = false) (v : PyVal) (d : Datum)
    (hd : leafDatum l v = .ok d) :
    valueSet env sim o (.immediate v) s =
      (.ok (), { s with driven := s.driven ++ [⟨o.ref, .noDelay, d⟩] }) ∧
    valueSet env sim o (.force v) s =
      (.ok (), { s with driven := s.driven ++ [⟨o.ref, .force, d⟩] }) := by
  constructor <;>
  · simp only [valueSet, hs, hc, dispatch, ho, setValue, hd, scheduleWrite, h.defers, write_plain h]
    simp

/-- Freezing and releasing a scalar signal writes back the value it has. -/
theorem C47_freeze_release_scalar (env : Env) (h : Plain env) (s : HS) (hs : s.phase ≠ .readOnly)
    (sim : Sim) (o : Obj) (l : Leaf) (ho : o.ty = .leaf l) (hc : env.isConst o.ref = false) (v : PyVal)
    (d : Datum) (hg : leafGet l (sim o.ref) = .ok v) (hd : leafDatum l v = .ok d) :
    valueSet env sim o .freeze s =
      (.ok (), { s with driven := s.driven ++ [⟨o.ref, .force, d⟩] }) ∧
    valueSet env sim o .release s =
      (.ok (), { s with driven := s.driven ++ [⟨o.ref, .release, d⟩] }) := by
  constructor <;>
  · simp only [valueSet, hs, hc, dispatch, setCurrent, ho, getValue, hg, setValue, hd, scheduleWrite,
      h.defers, write_plain h]
    simp

example : (run env [.set HandleEx.a (.plain (.int 1)) HandleEx.sim,
    .set HandleEx.a .freeze HandleEx.sim, .set HandleEx.a .release HandleEx.sim] .init).driven =
    [⟨⟨0, []⟩, .force, .bin ['0']⟩, ⟨⟨0, []⟩, .release, .bin ['0']⟩] := by decide +kernel

/-- In the read-only phase every write, with any action and to any object, raises RuntimeError and
has no effect; on any simulator. -/
theorem C47_read_only (env : Env) (sim : Sim) (o : Obj) (arg : Arg) (s : HS)
    (hs : s.phase = .readOnly) :
    valueSet env sim o arg s = (.error .runtimeError, s) ∧
      setImmediateValue env sim o arg s = (.error .runtimeError, s) := by
  simp [valueSet, setImmediateValue, hs]

/-- In the read-write phase every write, with any action, is driven at once. -/
theorem C47_read_write (env : Env) (h : Plain env) (sim : Sim) (o : Obj) (arg : Arg) (s : HS)
    (hs : s.phase = .readWrite) :
    (valueSet env sim o arg s).2 = { s with driven := s.driven ++ requestedBy env sim o arg } := by
  rw [valueSet_spec h, if_neg (by simp [hs])]
  exact schedAll_rw h _ s hs

example : (run env [.react .readWrite, .set HandleEx.w (.plain (.int (-1))) HandleEx.sim] .init).driven =
    [⟨⟨2, []⟩, .deposit, .int (-1)⟩] := by decide +kernel

/-- With COCOTB_TRUST_INERTIAL_WRITES set, every write goes to the simulator at once with its action
(deferring deposits is then left to the simulator) and nothing is ever pending. -/
theorem C47_trusting (env : Env) (ht : env.trust = true) (c : Call) (s : HS) :
    scheduleWrite env c s = write env c s ∧
      react env .readWrite s = (.ok (), { s with phase := .readWrite }) := by
  simp [scheduleWrite, react, applyScheduled, ht]

/-- C47 for `setimmediatevalue`: "Set the value of the simulation object immediately", "equivalent to
passing an `Immediate` to `set`" (handle.py:925-930). -/
def C47_setimmediatevalue_full : Prop :=
  ∀ (env : Env) (s : HS) (sim : Sim) (o : Obj) (v : PyVal), Plain env → s.phase = .other →
    (setImmediateValue env sim o (.plain v) s).2.driven =
      (valueSet env sim o (.immediate v) s).2.driven

/-- It is deferred like a deposit, because `_GPISetAction.OLD_IMMEDIATE` is an alias of `DEPOSIT`. -/
theorem C47_setimmediatevalue_counterexample : ¬ C47_setimmediatevalue_full := by
  intro H
  have := H env .init HandleEx.sim HandleEx.a (.int 1) plain rfl
  revert this
  decide +kernel

/-- What `setimmediatevalue` does instead: exactly what an ordinary deposit does. -/
theorem C47_setimmediatevalue_partial (env : Env) (s : HS) (sim : Sim) (o : Obj) (v : PyVal) :
    setImmediateValue env sim o (.plain v) s = valueSet env sim o (.plain v) s ∧
      setImmediateValue env sim o (.deposit v) s = valueSet env sim o (.plain v) s := by
  simp [setImmediateValue, Arg.old, valueSet, dispatch]

/-- C47 on a simulator whose C layer may refuse a value the handle object accepted: the pending
writes of the other signals are still applied in the next read-write phase. -/
def C47_refused_full : Prop :=
  ∀ (env : Env) (s : HS) (c : Call), env.primes = true → env.trust = false → c ∈ s.pend →
    env.refuses c.ref c.val = none → c ∈ (react env .readWrite s).2.driven

/-- A refused value (for instance a `bytes` with a NUL byte given to a string object, or an int too
large for a double given to a real object) stops the application of all writes queued after it. -/
theorem C47_refused_counterexample : ¬ C47_refused_full := by
  intro H
  have := H ⟨fun _ => false, fun _ => false, fun r _ => if r.sig = 0 then some .valueError else none,
    true, false⟩ ⟨.other, [⟨⟨0, []⟩, .deposit, .str [0]⟩, ⟨⟨1, []⟩, .deposit, .bin ['1']⟩], true, []⟩
    ⟨⟨1, []⟩, .deposit, .bin ['1']⟩ rfl rfl (by simp) (by simp)
  revert this
  decide +kernel

/-- The state of that counterexample is reached by two ordinary assignments. -/
example : run ⟨fun _ => false, fun _ => false, fun r _ => if r.sig = 0 then some .valueError else none,
    true, false⟩ [.set ⟨⟨0, []⟩, .leaf .string⟩ (.plain (.bytes [0])) HandleEx.sim,
      .set HandleEx.b (.plain (.int 1)) HandleEx.sim] .init =
    ⟨.other, [⟨⟨0, []⟩, .deposit, .str [0]⟩, ⟨⟨1, []⟩, .deposit, .bin ['1']⟩], true, []⟩ := by
  rfl

/-- The writes queued before the first refused one are applied, in order, and the error leaves the
read-write callback. -/
theorem C47_refused_partial (env : Env) (ht : env.trust = false) (s : HS) (pre post : List Call)
    (c : Call) (hp : s.pend = pre ++ c :: post) (hpre : ∀ x ∈ pre, env.refuses x.ref x.val = none)
    (e : PyErr) (hc : env.refuses c.ref c.val = some e) :
    react env .readWrite s = (.error e, { s with phase := .readWrite, driven := s.driven ++ pre }) := by
  have key : ∀ (l : List Call) (s : HS), (∀ x ∈ l, env.refuses x.ref x.val = none) →
      writeAll env (l ++ c :: post) s = (.error e, { s with driven := s.driven ++ l }) := by
    intro l
    induction l with
    | nil => intro s _; simp [writeAll, write, hc]
    | cons x l ih =>
      intro s hl
      have hx := hl x (by simp)
      simp only [List.cons_append, writeAll, write, hx]
      rw [ih _ fun y hy => hl y (List.mem_cons_of_mem _ hy)]
      simp
  simp only [react, applyScheduled, ht, Bool.false_eq_true, if_false, hp]
  rw [key pre _ hpre]
  rfl

end Verif
