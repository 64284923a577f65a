/-!
# The main program for Verilator, `verilator.cpp`

The design made by Verilator and its VPI (`VerilatedVpi`) are arbitrary operations on a state that also holds
everything the callbacks of the user do. A program counter stands for the place in `main`; loops that do not end are
executions that go on for ever. Command line, tracing, coverage, the exit callback that Verilator calls on fatal errors
(170) and the exit status (245-249) are left out.
-/
namespace Verif.Veri

/-- Kinds of callbacks (`VerilatedVpi::callCbs`). -/
inductive Cb where
  | start | readWrite | readOnly | nextTime | finish
  deriving DecidableEq, Repr

/-- The design and its VPI. `deadline` is `cbNextDeadline` and `slot` `nextTimeSlot`; `none` is the greatest number, or
no pending event. -/
structure World (σ : Type) where
  gotFinish : σ → Bool
  evalNeeded : σ → Bool
  deadline : σ → Option Nat
  slot : σ → Option Nat
  evalStep : σ → σ
  clearNeeded : σ → σ
  puts : σ → σ
  valueCbs : σ → σ × Bool
  cbs : Cb → σ → σ
  endStep : σ → σ
  timed : Nat → σ → σ
  final : σ → σ

/-- What the program does and what it learns. -/
inductive Ev where
  | cbs (c : Cb)
  | value (again : Bool)
  | got (finished : Bool)
  | eval
  | clear
  | puts
  | need (again : Bool)
  | endStep
  | advance (t : Nat)
  | timed (t : Nat)
  | final
  deriving DecidableEq, Repr

/-- The place to go on after value callbacks have settled. -/
inductive After where
  | start | eval | readWrite | nextTime | timed
  deriving DecidableEq, Repr

/-- The places in `main`, verilator.cpp:171-235. -/
inductive Pc where
  | start
  | settle (k : After)
  | loop
  | eval
  | clear
  | puts1
  | need1
  | readWrite
  | puts2
  | need2
  | endStep
  | readOnly
  | advance
  | nextTime
  | timed
  | final
  | wrapUp
  | done
  deriving DecidableEq, Repr

/-- State of an execution: place, design, `main_time`, and what has happened, the last first. -/
structure St (σ : Type) where
  pc : Pc
  s : σ
  time : Nat
  past : List Ev

/-- The smaller of two times that may be missing, verilator.cpp:206-214. -/
def earliest : Option Nat → Option Nat → Option Nat
  | some a, some b => some (min a b)
  | some a, none => some a
  | none, b => b

/-- Where to go on after `settle_value_callbacks`, verilator.cpp:172, 182, 188, 224, 230. -/
def After.pc : After → Pc
  | .start => .loop
  | .eval => .need1
  | .readWrite => .need2
  | .nextTime => .timed
  | .timed => .loop

/-- One step of `main`, verilator.cpp:171-235, and of `settle_value_callbacks`, 49-61. -/
def step {σ : Type} (w : World σ) (x : St σ) : St σ :=
  match x.pc with
  | .start => { x with pc := .settle .start, s := w.cbs .start x.s, past := .cbs .start :: x.past }
  | .settle k =>
    let (s, again) := w.valueCbs x.s
    { x with pc := if again then .settle k else k.pc, s := s, past := .value again :: x.past }
  | .loop =>
    { x with pc := if w.gotFinish x.s then .final else .eval, past := .got (w.gotFinish x.s) :: x.past }
  | .eval => { x with pc := .clear, s := w.evalStep x.s, past := .eval :: x.past }
  | .clear => { x with pc := .puts1, s := w.clearNeeded x.s, past := .clear :: x.past }
  | .puts1 => { x with pc := .settle .eval, s := w.puts x.s, past := .puts :: x.past }
  | .need1 =>
    { x with pc := if w.evalNeeded x.s then .eval else .readWrite, past := .need (w.evalNeeded x.s) :: x.past }
  | .readWrite => { x with pc := .puts2, s := w.cbs .readWrite x.s, past := .cbs .readWrite :: x.past }
  | .puts2 => { x with pc := .settle .readWrite, s := w.puts x.s, past := .puts :: x.past }
  | .need2 =>
    { x with pc := if w.evalNeeded x.s then .eval else .endStep, past := .need (w.evalNeeded x.s) :: x.past }
  | .endStep => { x with pc := .readOnly, s := w.endStep x.s, past := .endStep :: x.past }
  | .readOnly => { x with pc := .advance, s := w.cbs .readOnly x.s, past := .cbs .readOnly :: x.past }
  | .advance =>
    match earliest (w.deadline x.s) (w.slot x.s) with
    | none => { x with pc := .final }
    | some t => { x with pc := .nextTime, time := t, past := .advance t :: x.past }
  | .nextTime => { x with pc := .settle .nextTime, s := w.cbs .nextTime x.s, past := .cbs .nextTime :: x.past }
  | .timed => { x with pc := .settle .timed, s := w.timed x.time x.s, past := .timed x.time :: x.past }
  | .final => { x with pc := .wrapUp, s := w.final x.s, past := .final :: x.past }
  | .wrapUp => { x with pc := .done, s := w.cbs .finish x.s, past := .cbs .finish :: x.past }
  | .done => x

/-- The state after `n` steps. -/
def run {σ : Type} (w : World σ) (s : σ) : Nat → St σ
  | 0 => { pc := .start, s := s, time := 0, past := [] }
  | n + 1 => step w (run w s n)

/-! ## The VPI of Verilator

`verilated_vpi.cpp` is not part of this code base; the following is what `main` relies on. -/

/-- What a callback of the user does: write values and register callbacks of a kind. -/
structure Act where
  write : Bool := false
  add : List (Cb × Nat) := []
  deriving Repr

/-- The VPI: registered callbacks, a value waits to be put, the design has to be evaluated, callbacks called with their
time. -/
structure Vpi where
  cbs : List (Cb × Nat)
  written : Bool
  need : Bool
  called : List (Cb × Nat)
  deriving Repr

/-- `VerilatedVpi::callCbs`: the callbacks registered before the call are called once. -/
def callCbs (user : Nat → Act) (c : Cb) (v : Vpi) : Vpi :=
  let mine := v.cbs.filter (·.1 == c)
  let acts := mine.map fun x => user x.2
  { v with
    cbs := v.cbs.filter (·.1 != c) ++ acts.flatMap (·.add)
    written := v.written || acts.any (·.write)
    called := v.called ++ mine }

/-- A design with callbacks `user` of the user and timed callbacks `tick`; value callbacks are left out. -/
def vpiWorld (user : Nat → Act) (tick : Nat → Act) (dl sl : Vpi → Option Nat) (fin : Vpi → Bool) : World Vpi where
  gotFinish v := fin v
  evalNeeded v := v.need
  deadline v := dl v
  slot v := sl v
  evalStep v := v
  clearNeeded v := { v with need := false }
  puts v := { v with need := v.need || v.written, written := false }
  valueCbs v := (v, false)
  cbs c v := callCbs user c v
  endStep v := v
  timed t v := { v with cbs := v.cbs ++ (tick t).add, written := v.written || (tick t).write }
  final v := v

end Verif.Veri
