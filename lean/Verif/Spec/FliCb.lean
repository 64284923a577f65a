import Verif.Model.FliCb

/-!
Specification for the callbacks of the FLI. Everything is said of the log, in terms of registrations; the objects that are reused
do not appear.
-/

namespace Verif.FliCbSpec

open FliCb

/-- All states that can be reached. -/
inductive Reach (c : Cfg) : St → Prop
  | init : Reach c {}
  | step {s s' : St} {a : Act} : Reach c s → exec c s a = some s' → Reach c s'

/-- The registrations the claims are made for: all of them if the simulator withdraws the run of a process that is desensitised,
and otherwise those that are not value changes. -/
def Sound (c : Cfg) (r : Nat) (log : List Ev) : Prop := c.withdraws = true ∨ .register .value r ∉ log

/-- Every call of the function of `r` directly follows a run of the simulator on behalf of `r`; a value change must have the value the
edge asks for. -/
def CalledBySim (r : Nat) (log : List Ev) : Prop :=
  ∀ i, log[i]? = some (.run r) → ∃ j pass, i = j + 1 ∧ log[j]? = some (.fire r pass) ∧ (.register .value r ∈ log → pass = true)

/-- Every run of the simulator on behalf of `r` is directly followed by a call of the function of `r`, unless `r` was removed before, or
waits for an edge and the signal has not the value asked for. -/
def SimCalls (r : Nat) (log : List Ev) : Prop :=
  ∀ i pass, log[i]? = some (.fire r pass) → (.register .value r ∈ log → pass = true) →
    (∃ j, j < i ∧ log[j]? = some (.remove r)) ∨ log[i + 1]? = some (.run r)

/-- A run of the simulator on behalf of `r`. -/
def isFire (r : Nat) : Ev → Bool
  | .fire r' _ => r' = r
  | _ => false

def isRegister (k : Kind) : Ev → Bool
  | .register k' _ => k' = k
  | _ => false

def isEnded (k : Kind) : Ev → Bool
  | .ended k' _ => k' = k
  | _ => false

/-- How many registrations of a kind are not over. -/
def inUse (k : Kind) (log : List Ev) : Int := (log.countP (isRegister k) : Int) - log.countP (isEnded k)

/-- The most that ever were. -/
def IsPeak (k : Kind) (log : List Ev) (m : Int) : Prop :=
  (∃ pre, pre <+: log ∧ inUse k pre = m) ∧ ∀ pre, pre <+: log → inUse k pre ≤ m

/-- Number of simulator processes of a kind that were created. -/
def processes (k : Kind) (s : St) : Nat := (List.range s.n).countP fun o => (s.obj o).kind = k

end Verif.FliCbSpec
