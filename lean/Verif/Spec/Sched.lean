import Verif.Model.Sched

/-!
Specifications for the scheduler properties, in terms of what happened (the log of observations)
only: nothing here refers to how the scheduler keeps its state.
-/

namespace Verif.SchedSpec

open Verif.Sched (Obs Exc Outcome TState Trig)

/-- The life of a task as seen from outside. -/
inductive Phase
  | new        -- not started
  | waiting    -- has something to wait for (its first run, or the trigger it yielded)
  | running
  | over
  deriving DecidableEq, Repr

/-- How one observation may move task `t`; `none` if it must not happen in that phase.
A task is continued only when it is waiting; it waits only by yielding (or being started);
nothing but done callbacks happens to it when it is over. -/
def lifeStep (t : Nat) : Phase → Obs → Option Phase
  | p, .start u => if u = t then (if p = .new then some .waiting else none) else some p
  | p, .resume u _ => if u = t then (if p = .waiting then some .running else none) else some p
  | p, .suspend u _ => if u = t then (if p = .running then some .waiting else none) else some p
  | p, .suspendBad u => if u = t then (if p = .running then some .waiting else none) else some p
  | p, .done u _ _ => if u = t then (if p = .over then none else some .over) else some p
  | p, _ => some p

/-- The phase after a log, `none` if some observation in it was not allowed. -/
def life (t : Nat) (log : List Obs) : Option Phase :=
  log.foldlM (lifeStep t) .new

/-- The numbers of the done callbacks registered with `t`, in order. -/
def registered (t : Nat) (log : List Obs) : List Nat :=
  log.filterMap fun o => match o with
    | .regCb u c => if u = t then some c else none
    | _ => none

/-- The calls of done callbacks of `t`, in order. -/
def called (t : Nat) (log : List Obs) : List Nat :=
  log.filterMap fun o => match o with
    | .doneCb u c => if u = t then some c else none
    | _ => none

def isDoneObs (t : Nat) : Obs → Bool
  | .done u _ _ => u == t
  | _ => false

/-- The callbacks registered before `t` was done. -/
def registeredBefore (t : Nat) (log : List Obs) : List Nat :=
  registered t (log.takeWhile fun o => !isDoneObs t o)

/-- The last of `set()`/`clear()` on event `e`, initially cleared. -/
def lastSet (e : Nat) (log : List Obs) : Bool :=
  log.foldl (fun b o => match o with
    | .setE e' => if e' = e then true else b
    | .clearE e' => if e' = e then false else b
    | _ => b) false

/-- A lock as a first-come first-served monitor: who holds it and who waits, oldest first. -/
structure Mutex where
  holder : Option Nat := none
  waiting : List Nat := []
  deriving DecidableEq, Repr

/-- The allowed observations on lock `l`: a new request queues up; a waiting request may be
withdrawn; a grant happens only when nobody holds the lock, and to the oldest request; only a held
lock is released. -/
def mutexStep (l : Nat) (m : Mutex) : Obs → Option Mutex
  | .req l' n => if l' = l then
      (if n ∈ m.waiting ∨ m.holder = some n then none
       else some { m with waiting := m.waiting ++ [n] }) else some m
  | .drop l' n => if l' = l then
      (if n ∈ m.waiting then some { m with waiting := m.waiting.erase n } else none) else some m
  | .grant l' n => if l' = l then
      (if m.holder = none ∧ m.waiting.head? = some n then
        some { holder := some n, waiting := m.waiting.tail } else none) else some m
  | .rel l' => if l' = l then
      (if m.holder = none then none else some { m with holder := none }) else some m
  | _ => some m

def mutex (l : Nat) (log : List Obs) : Option Mutex :=
  log.foldlM (mutexStep l) {}

end Verif.SchedSpec
