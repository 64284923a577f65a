import Verif.Model.Queue

/-! What a queue does, in terms of the items put and got. -/

namespace Verif.QueueSpec

open Queue

variable {α : Type} [DecidableEq α] (lt : α → α → Bool)

/-- The items inserted, in order. -/
def puts (log : List (Obs α)) : List α :=
  log.filterMap fun o => match o with | .put _ x => some x | _ => none

/-- The items removed, in order. -/
def gots (log : List (Obs α)) : List α :=
  log.filterMap fun o => match o with | .got _ x => some x | _ => none

/-- May `x` be the next item got, with `inside` (in the order of insertion) in the queue, and what
is left then? -/
def take (k : Kind) (inside : List α) (x : α) : Option (List α) :=
  match k with
  | .fifo => if inside.head? = some x then some inside.tail else none
  | .lifo => if inside.getLast? = some x then some inside.dropLast else none
  | .prio => if x ∈ inside ∧ ∀ y ∈ inside, lt y x = false then some (inside.erase x) else none

/-- Follow the log: what is inside the queue; `none` if an item was got that should not have been. -/
def replayStep (k : Kind) (inside : List α) : Obs α → Option (List α)
  | .put _ x => some (inside ++ [x])
  | .got _ x => take lt k inside x
  | _ => some inside

def replay (k : Kind) (log : List (Obs α)) : Option (List α) :=
  log.foldlM (replayStep lt k) []

/-- How call `c` ended. -/
def results (c : Nat) (log : List (Obs α)) : List (Obs α) :=
  log.filter fun o => match o with
    | .put c' _ => c' == c
    | .got c' _ => c' == c
    | .raised c' => c' == c
    | _ => false

end Verif.QueueSpec
