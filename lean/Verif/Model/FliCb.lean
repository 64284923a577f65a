import Verif.Model.Sched

/-!
Model of the callbacks of the FLI, which reuse their objects and simulator processes:
src/cocotb/share/lib/gpi/fli/FliCbHdl.cpp, `FliProcessCbHdlCache` of FliImpl.hpp, the `register_…_callback` functions of
FliImpl.cpp and FliObjHdl.cpp, with `handle_gpi_callback` and `deregister` of src/cocotb/share/lib/pygpi/bind.cpp.

The simulator is an arbitrary environment: it wakes a process for which a wake-up is scheduled, and it runs a process that is
sensitive to a signal after the signal had an event, in any order, one at a time. What Python does inside a callback is
arbitrary, except that it removes only callbacks it still holds: ones that were neither run nor removed.

Simplifications:
  * The `PythonCallback` of a registration is identified with the number of the registration; its freed memory is never reused;
    using it is recorded as an event.
  * Start-up and shutdown callbacks and return codes are left out; `arm` does not fail (it always returns 0).
  * Processes are created after the simulation was initialised, so that the simulator does not run them on its own.
-/

namespace Verif.FliCb

open Sched (upd)

/-- The five caches, FliImpl.hpp:488-494. -/
inductive Kind | timed | readWrite | readOnly | nextPhase | value
  deriving DecidableEq, Repr

/-- The simulator. -/
structure Cfg where
  /-- `mti_Desensitize` also withdraws a run of the process that a signal event has already caused -/
  withdraws : Bool
  deriving DecidableEq, Repr

/-- A `FliProcessCbHdl` and its process, FliImpl.hpp:33-47, 84-163. -/
structure Obj where
  kind : Kind := .timed
  /-- `m_removed`, of the wake-up kinds -/
  removed : Bool := false
  /-- `m_cb_data`: the registration it belongs to -/
  data : Nat := 0
  /-- a wake-up is scheduled, or the process is sensitive to the signal; on behalf of which registration -/
  armed : Option Nat := none
  /-- (value changes) the process is to be run because of a signal event; on behalf of which registration -/
  event : Option Nat := none
  deriving DecidableEq, Repr

/-- What is observed of registration `r`: it is made (with a callback of kind `k`), the simulator runs the process on its behalf
(`pass`: for an edge, the signal then has the value the edge asks for), its Python function is called, it is over: its object is
free again; Python removes it; its `PythonCallback` is used (or deleted) after it was deleted. -/
inductive Ev
  | register (k : Kind) (r : Nat) | fire (r : Nat) (pass : Bool) | run (r : Nat) | ended (k : Kind) (r : Nat) | remove (r : Nat) | dangling (r : Nat)
  deriving DecidableEq, Repr

structure St where
  /-- number of objects, that is of simulator processes -/
  n : Nat := 0
  obj : Nat → Obj := fun _ => {}
  /-- `free_list`, its back first -/
  free : Kind → List Nat := fun _ => []
  /-- number of registrations -/
  regs : Nat := 0
  /-- the object of a registration; its `PythonCallback` has not been deleted; Python holds the handle and has neither been called nor removed it -/
  hdl : Nat → Nat := fun _ => 0
  alive : Nat → Bool := fun _ => false
  held : Nat → Bool := fun _ => false
  /-- the object whose Python function is running, and the registration that was called -/
  running : Option (Nat × Nat) := none
  log : List Ev := []

def St.set (s : St) (o : Nat) (x : Obj) : St := { s with obj := upd s.obj o x }
def St.ev (s : St) (e : Ev) : St := { s with log := s.log ++ [e] }

/-- `free_list.push_back`, FliImpl.hpp:78; FliCbHdl.cpp:148-166. `r` is the registration that is over. -/
def release (s : St) (o r : Nat) : St :=
  St.ev { s with free := upd s.free (s.obj o).kind (o :: s.free (s.obj o).kind) } (.ended (s.obj o).kind r)

/-- `acquire`, FliImpl.hpp:62-77: the object, and the state with it taken out. -/
def acquire (s : St) (k : Kind) : Nat × St :=
  match s.free k with
  | o :: rest => (o, { s with free := upd s.free k rest })
  | [] => (s.n, { s.set s.n { kind := k } with n := s.n + 1 })

/-- `register_…_callback`: FliImpl.cpp:595-656, FliObjHdl.cpp:20-39, `arm` (FliCbHdl.cpp:42-54, 79-84, 125-130) and `set_cb_info`;
bind.cpp:199-440. -/
def register (s : St) (k : Kind) : St :=
  let r := s.regs
  let (o, s) := acquire s k
  let x := s.obj o
  let x := { x with removed := if k = .value then x.removed else false, armed := some r, data := r }
  St.ev { s.set o x with regs := r + 1, hdl := upd s.hdl r o, alive := upd s.alive r true, held := upd s.held r true } (.register k r)

/-- `mti_Desensitize`. -/
def desensitize (c : Cfg) (s : St) (o : Nat) : St :=
  s.set o { s.obj o with armed := none, event := if c.withdraws then none else (s.obj o).event }

/-- `delete cb`. -/
def delete (s : St) (r : Nat) : St :=
  if s.alive r then { s with alive := upd s.alive r false } else s.ev (.dangling r)

/-- `m_cb_func(m_cb_data)`, up to the call of the Python function, bind.cpp:163-176. -/
def callUp (s : St) (o : Nat) : St :=
  let r := (s.obj o).data
  if s.alive r then St.ev { s with held := upd s.held r false, running := some (o, r) } (.run r) else s.ev (.dangling r)

inductive Act
  /-- Python registers a callback -/
  | register (k : Kind)
  /-- Python removes what it registered -/
  | remove (r : Nat)
  /-- a signal event, for the process of object `o` -/
  | event (o : Nat)
  /-- the simulator runs the process of object `o` -/
  | fire (o : Nat) (pass : Bool)
  /-- the Python function returns -/
  | ret
  deriving DecidableEq, Repr

/-- One step; `none` if it is not possible. -/
def exec (c : Cfg) (s : St) : Act → Option St
  | .register k => some (register s k)
  -- `deregister`, bind.cpp:798-809, and `remove`, FliCbHdl.cpp:67-74, 116-122, 143-150
  | .remove r =>
    if s.held r then
      let o := s.hdl r
      let s := delete { s.ev (.remove r) with held := upd s.held r false } (s.obj o).data
      if (s.obj o).kind = .value then some (release (desensitize c s o) o r)
      else some (s.set o { s.obj o with removed := true })
    else none
  | .event o =>
    if (s.obj o).kind = .value ∧ (s.obj o).armed.isSome then some (s.set o { s.obj o with event := (s.obj o).armed }) else none
  -- `handle_fli_callback` and `run`, FliCbHdl.cpp:14-39, 56-65, 86-114, 132-141. A wake-up happens once.
  | .fire o pass =>
    if s.running.isSome then none
    else if (s.obj o).kind = .value then
      match (s.obj o).event with
      | none => none
      | some r =>
        let s := (s.set o { s.obj o with event := none }).ev (.fire r pass)
        if pass then some (callUp s o) else some s
    else
      match (s.obj o).armed with
      | none => none
      | some r =>
        let s := (s.set o { s.obj o with armed := none }).ev (.fire r pass)
        if (s.obj o).removed then some (release s o r) else some (callUp s o)
  -- the end of `handle_gpi_callback`, bind.cpp:172-196, and of `run`, FliCbHdl.cpp:62-64, 105-113, 138-140
  | .ret =>
    match s.running with
    | none => none
    | some (o, r) =>
      let s := delete { s with running := none } r
      if (s.obj o).kind = .value then some (release (desensitize c s o) o r) else some (release s o r)

def run (c : Cfg) : St → List Act → Option St
  | s, [] => some s
  | s, a :: as => match exec c s a with
    | some s' => run c s' as
    | none => none

end Verif.FliCb
