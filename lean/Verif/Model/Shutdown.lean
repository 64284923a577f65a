/-!
# Shutdown callbacks (cocotb/_shutdown.py)

Callbacks are numbers. What a callback does is arbitrary and may depend on everything called before it: it registers
further callbacks and returns or raises. A callback that runs the shutdown itself is left out.
-/
namespace Verif.Shutdown

/-- What a callback does when called: what it registers, and whether it raises after that. -/
structure Effect where
  /-- The callbacks registered, in order. -/
  registers : List Nat
  /-- It ends with an exception. -/
  raises : Bool

/-- Behaviour of callbacks, given the calls made before. -/
abbrev Behaviour := List Nat → Nat → Effect

/-- `_callbacks`, and two logs: every `register` call and every call of a callback. -/
structure State where
  /-- `_callbacks`. cocotb/_shutdown.py:8. -/
  callbacks : List Nat
  /-- All registrations so far, in order. -/
  registered : List Nat
  /-- All calls so far, in order. -/
  called : List Nat

/-- At import. -/
def init : State := ⟨[], [], []⟩

/-- `register(cb)`. cocotb/_shutdown.py:12-14. -/
def register (cb : Nat) (s : State) : State :=
  { s with callbacks := s.callbacks ++ [cb], registered := s.registered ++ [cb] }

/-- How a call of `_shutdown` stands. -/
inductive Outcome where
  /-- The loop goes on. -/
  | running
  /-- It returned. -/
  | returned
  /-- A callback raised; the exception left the loop. -/
  | raised
  deriving DecidableEq

/-- One turn of the loop of `_shutdown`. cocotb/_shutdown.py:19-21. -/
def turn (B : Behaviour) (s : State) : State × Outcome :=
  match s.callbacks with
  | [] => (s, .returned)
  | cb :: rest =>
    let e := B s.called cb
    let s := e.registers.foldl (fun s c => register c s) { s with callbacks := rest, called := s.called ++ [cb] }
    (s, if e.raises then .raised else .running)

/-- Up to `n` turns of `_shutdown`; callbacks that register others for ever make the call endless, so it is followed for
any number of turns. cocotb/_shutdown.py:17-21. -/
def shutdown (B : Behaviour) : Nat → State → State × Outcome
  | 0, s => (s, .running)
  | n + 1, s =>
    match turn B s with
    | (s', .running) => shutdown B n s'
    | r => r

/-- What happens from outside: a registration, or the simulator's end (which calls `_shutdown`). -/
inductive Ev where
  | register (cb : Nat)
  | shutdown (turns : Nat)

/-- One event. -/
def step (B : Behaviour) (s : State) : Ev → State
  | .register cb => register cb s
  | .shutdown n => (shutdown B n s).1

/-- A history. -/
def run (B : Behaviour) (evs : List Ev) : State := evs.foldl (step B) init

end Verif.Shutdown
