import Verif.Model.Sched

/-!
Model of src/cocotb/_task_manager.py: one `TaskManager`, used in an `async with` block by an arbitrary
task after an arbitrary history, while all other code does arbitrary things.

Simplifications:
  * The manager is entered once (entering the same manager again from inside its block is not
    modelled).
  * The children's numbers are arbitrary unused ones.  The done callback of the manager is the first
    one registered with each child (line 110 registers it before anything else can), so it is
    recognised by its position in the list.
  * `_exceptions` is a list with the origin of each exception instead of a set: one and the same
    exception object raised by two children counts twice.
  * Other code does not use the private event of the manager, does not `kill()` the children (a
    deprecated method), and uses the private `_cancel_now()` only as its documentation allows: not
    while a task is running, and not on the children.
  * A block that is closed because its task ignored a cancellation (task.py 414) lets the
    `GeneratorExit` through to `__aexit__`.  This is done just before the task's outcome is set, as in
    the code.
-/

namespace Verif.TM

open Sched

/-- How control left the block. -/
inductive Leave
  /-- `return True`, line 307 -/
  | normal
  /-- an exception of the block, of `__aexit__` or a cancellation goes on to the caller -/
  | raises (e : Exc)
  /-- `BaseExceptionGroup`, lines 302-304: the exceptions and where they come from (`none`: the block) -/
  | group (l : List (Option Nat × Exc))
  /-- the task was ended by the scheduler at an `await` -/
  | closed
  deriving DecidableEq, Repr

inductive Phase
  | fresh
  /-- the constructor has run -/
  | created
  | body
  /-- at `await NullTrigger()`, line 249 -/
  | killing
  /-- at `await self._none_remaining.wait()`, line 272, with what `exc` is by then -/
  | waiting (exc : Option Exc)
  /-- at one of the same awaits in the loops of lines 260-265 and 280-285 -/
  | ext
  | left (r : Leave)
  deriving DecidableEq, Repr

/-- Observations: the block was entered; a child was started (with its `continue_on_error`); the end of
a child was announced; the block ended (with its exception); the wait for the children was interrupted
by a cancellation; the block was closed; the manager cancelled a child or the parent. -/
inductive Obs
  | entered
  | child (t : Nat) (coe : Bool)
  | ended (t : Nat)
  | block (e : Option Exc)
  | interrupted
  | closed
  | cancel (t : Nat)
  | cancelParent
  deriving DecidableEq, Repr

/-- The attributes, _task_manager.py 46-77, next to the scheduler's state. -/
structure TS where
  w : World := {}
  dflt : Bool := false
  ctx : Bool := false
  parent : Nat := 0
  entered : Bool := false
  finishing : Bool := false
  cancelled : Bool := false
  remaining : List (Nat × Bool) := []
  excs : List (Option Nat × Exc) := []
  phase : Phase := .fresh
  log : List Obs := []

/-- The number of the private event `_none_remaining`, line 62. -/
def noneRemaining : Nat := 0

/-- The constructor, lines 46-77. -/
def new (s : TS) (dflt : Bool) (ctx : Option Bool) : TS :=
  { s with
    dflt := dflt
    ctx := ctx.getD dflt
    w := api s.w (.setE noneRemaining)
    phase := .created }

/-- `__aenter__`, lines 221-226, by the running task `p`. -/
def enter (s : TS) (p : Nat) : TS :=
  { s with entered := true, parent := p, phase := .body, log := s.log ++ [.entered] }

/-- The four errors of `start_soon`, lines 98-106, in the order in which they are tested. -/
inductive Refusal | afterError | afterFinishing | beforeEntering | otherTask
  deriving DecidableEq, Repr

def refusal (s : TS) : Option Refusal :=
  if s.cancelled then some .afterError
  else if s.finishing then some .afterFinishing
  else if !s.entered then some .beforeEntering
  else if s.w.current ≠ some s.parent then some .otherTask
  else none

/-- `start_soon`, lines 79-123; `fork` (137-192) calls it. -/
def startSoon (s : TS) (t : Nat) (coe : Option Bool) : TS :=
  match refusal s with
  | some _ => s
  | none =>
    let c := coe.getD s.dflt
    { s with
      w := api (api (api s.w (.addCb t)) (.clearE noneRemaining)) (.startSoon t)
      remaining := s.remaining ++ [(t, c)]
      log := s.log ++ [.child t c] }

/-- `_cancel`, lines 206-219. -/
def cancelAll (s : TS) : TS :=
  if s.cancelled then s
  else
    let s1 := if s.finishing then { s with cancelled := true } else
      { s with cancelled := true, w := api s.w (.cancel s.parent), log := s.log ++ [.cancelParent] }
    { s1 with
      w := s1.remaining.foldl (fun w x => api w (.cancel x.1)) s1.w
      log := s1.log ++ s1.remaining.map fun x => .cancel x.1 }

/-- What `_done_callback` makes of the task's outcome, line 201: the exception, if there is one and the
task was not cancelled. -/
def failure (w : World) (t : Nat) : Option Exc :=
  if w.cancelled t then none
  else match w.exception t with
    | .returnsExc e => some e
    | _ => none

/-- The first half of the done callback: the child is no longer remaining, and the event is set if it
was the last one. -/
def childLeft (s : TS) (t : Nat) : TS :=
  let s1 := { s with
    remaining := s.remaining.filter (·.1 != t)
    log := s.log ++ [.ended t] }
  if s1.remaining = [] then { s1 with w := api s1.w (.setE noneRemaining) } else s1

/-- `_done_callback`, lines 194-204. -/
def doneCallback (s : TS) (t : Nat) : TS :=
  let coe := (s.remaining.find? (·.1 == t)).map (·.2)
  let s2 := childLeft s t
  match failure s2.w t with
  | none => s2
  | some e =>
    let s3 := { s2 with excs := s2.excs ++ [(some t, e)] }
    if coe = some false then cancelAll s3 else s3

/-- `GeneratorExit` in the block or at an `await` of `__aexit__`: lines 236-238 and 288-294. -/
def giveUp (s : TS) : TS :=
  cancelAll { s with finishing := true, log := s.log ++ [.closed] }

/-- `__aexit__` awaits `g`. -/
def suspend (s : TS) (g : Trig) (ph : Phase) : Option TS :=
  let s1 := if (s.w.task s.parent).mustCancel > 0 then giveUp s else s
  match Sched.exec s1.w (.await g false) with
  | none => none
  | some (w', _) => some { s1 with w := w', phase := if w'.done s1.parent then .left .closed else ph }

/-- The loops of lines 260-265 and 280-285 and the re-raise after them. -/
def loop (s : TS) : Option TS :=
  if s.w.fired noneRemaining then some { s with phase := .left (.raises .cancelled) }
  else suspend s (.event noneRemaining) .ext

/-- `self._parent_task._uncancel()`. -/
def uncancel (s : TS) : TS := { s with w := api s.w (.uncancel s.parent) }

/-- Lines 271-272. -/
def waitAll (s : TS) (exc : Option Exc) : Option TS :=
  suspend s (.event noneRemaining) (.waiting exc)

/-- `__aexit__` begins, line 231. -/
def begin_ (s : TS) (exc : Option Exc) : TS := { s with finishing := true, log := s.log ++ [.block exc] }

/-- `__aexit__` up to its first `await`, lines 228-272. -/
def exit (s : TS) (exc : Option Exc) : Option TS :=
  let s1 := begin_ s exc
  match exc with
  | some (.fatal n) => some { cancelAll s1 with phase := .left (.raises (.fatal n)) }
  | some .cancelled =>
    if s1.cancelled then waitAll (uncancel s1) none
    else loop (uncancel (cancelAll s1))
  | none => if s1.cancelled then suspend s1 (.null 0) .killing else waitAll s1 none
  | some e =>
    if s1.cancelled then suspend s1 (.null 0) .killing
    else if s1.ctx then waitAll s1 (some e)
    else waitAll (cancelAll s1) (some e)

/-- The end of `__aexit__`, lines 296-307; `exc` is not a `CancelledError` here. -/
def finish (s : TS) (exc : Option Exc) : TS :=
  let l := s.excs ++ (exc.map fun e => (none, e)).toList
  { s with phase := .left (if l = [] then .normal else .group l) }

/-- The parent is resumed inside `__aexit__`. -/
def goOn (s : TS) : Option TS :=
  match s.phase, (s.w.task s.parent).exc with
  | .killing, none => some { s with phase := .left (.raises .runtimeError) }
  | .killing, some e => some { s with phase := .left (.raises e) }
  | .waiting exc, none => some (finish s exc)
  | .waiting _, some .cancelled =>
    loop (uncancel (cancelAll { s with log := s.log ++ [.interrupted] }))
  | .waiting _, some e =>
    some { cancelAll { s with log := s.log ++ [.interrupted] } with phase := .left (.raises e) }
  | .ext, none => loop s
  | .ext, some .cancelled => loop (uncancel s)
  | .ext, some e => some { s with phase := .left (.raises e) }
  | _, _ => some s

/-- The children, from the log: what `start_soon` was given. -/
def kids (log : List Obs) : List (Nat × Bool) :=
  log.filterMap fun
    | .child t c => some (t, c)
    | _ => none

/-- The running code is the block. -/
def inBlock (s : TS) : Bool :=
  match s.phase, s.w.stack with
  | .body, .running p :: _ => p == s.parent
  | _, _ => false

/-- What other code, and the block, may do; see the head of this file.  The block's task does not end
without leaving the block. -/
def allowed (s : TS) (a : Act) : Bool :=
  (quiet s.w || a == .cbStep) &&
  match a with
  | .setE e => e != noneRemaining
  | .clearE e => e != noneRemaining
  | .await (.event e) _ => e != noneRemaining
  | .kill t => !((kids s.log).map (·.1)).contains t
  | .cancelNow t => !((kids s.log).map (·.1)).contains t && nobodyRuns s.w
  | .ret _ => !inBlock s
  | .raise _ => !inBlock s
  | _ => true

/-- The block awaits something although it has been told to end: it is closed. -/
def closes (s : TS) (a : Act) : Bool :=
  inBlock s && decide ((s.w.task s.parent).mustCancel > 0) &&
  match a with
  | .await g _ => !awaitRefused s.w g
  | .yieldBad => true
  | _ => false

/-- The parent is suspended inside `__aexit__`. -/
def Phase.inside : Phase → Bool
  | .killing | .waiting _ | .ext => true
  | _ => false

/-- After action `a` of other code in state `old`: the manager's own code runs if it was called. -/
def hook (old : World) (s : TS) (a : Act) : Option TS :=
  match a, old.stack, s.w.stack with
  | .cbStep, .finishing t 0 _ :: _, _ =>
    if t ∈ (kids s.log).map (·.1) then some (doneCallback s t) else some s
  | .pop, _, .running t :: _ => if t = s.parent ∧ s.phase.inside then goOn s else some s
  | .cancelNow _, _, .running t :: _ => if t = s.parent ∧ s.phase.inside then goOn s else some s
  | _, _, _ => some s

inductive TAct
  /-- anything other code, or the block, does -/
  | sched (a : Act)
  /-- the constructor -/
  | new (dflt : Bool) (ctx : Option Bool)
  /-- the running task enters the block -/
  | enter
  /-- some code calls `start_soon`, the new task being `t` -/
  | startSoon (t : Nat) (coe : Option Bool)
  /-- the block ends -/
  | exit (exc : Option Exc)

/-- The actions of the manager are those of running code. -/
def active (w : World) : Bool := w.inside && !w.halted && quiet w

/-- One step. -/
def exec (s : TS) : TAct → Option TS
  | .sched a =>
    if allowed s a then
      let s1 := if closes s a then { giveUp s with phase := .left .closed } else s
      match Sched.exec s1.w a with
      | none => none
      | some (w', _) => hook s1.w { s1 with w := w' } a
    else none
  | .new d c => if s.phase = .fresh ∧ active s.w = true then some (new s d c) else none
  | .enter =>
    match s.w.stack with
    | .running p :: _ => if s.phase = .created ∧ active s.w = true then some (enter s p) else none
    | _ => none
  | .startSoon t coe =>
    if s.phase ≠ .fresh ∧ active s.w = true ∧ s.w.task t = {} then some (startSoon s t coe) else none
  | .exit exc => if inBlock s = true ∧ active s.w = true then exit s exc else none

def run : TS → List TAct → Option TS
  | s, [] => some s
  | s, a :: as => match exec s a with
    | some s' => run s' as
    | none => none

/-- States reached by some schedule of some programs, one task manager being looked at. -/
def Reach (s : TS) : Prop := ∃ as, run {} as = some s

end Verif.TM
