import Verif.Py.Basic
/-!
# Python's built-in `range`
-/
namespace Verif

/-- Python `range(start, stop, step)` (the constructor rejects `step = 0`). -/
structure PyRange where
  start : Int
  stop : Int
  step : Int
  deriving DecidableEq, Repr

namespace PyRange

/-- `len(range)`. -/
def len (r : PyRange) : Nat :=
  if 0 < r.step then
    if r.start < r.stop then ((r.stop - r.start - 1) / r.step + 1).toNat else 0
  else if r.step < 0 then
    if r.stop < r.start then ((r.start - r.stop - 1) / (-r.step) + 1).toNat else 0
  else 0

/-- Items produced by iterating a range. -/
def items (r : PyRange) : List Int :=
  (List.range r.len).map fun (i : Nat) => r.start + (i : Int) * r.step

/-- `range[i]` for an int. -/
def getItem (r : PyRange) (i : Int) : PyM Int :=
  match pyIndex r.len i with
  | some k => .ok (r.start + (k : Int) * r.step)
  | none => .error .indexError

/-- `range[slice]` (CPython `compute_slice`). -/
def getSlice (r : PyRange) (s : PySlice) : PyM PyRange :=
  match s.indices r.len with
  | .error e => .error e
  | .ok (a, b, st) => .ok ⟨r.start + a * r.step, r.start + b * r.step, st * r.step⟩

/-- `v in range` for an int `v` (CPython `range_contains_long`). -/
def contains (r : PyRange) (v : Int) : Bool :=
  if 0 < r.step then
    decide (r.start ≤ v ∧ v < r.stop ∧ (v - r.start) % r.step = 0)
  else
    decide (v ≤ r.start ∧ r.stop < v ∧ (v - r.start) % r.step = 0)

/-- `range.index(v)` for an int `v`. -/
def index (r : PyRange) (v : Int) : PyM Int :=
  if r.contains v then .ok (Int.fdiv (v - r.start) r.step) else .error .valueError

/-- `reversed(range)`: iterates `range(start + (n-1)*step, start - step, -step)`. -/
def reversed (r : PyRange) : PyRange :=
  ⟨r.start + ((r.len : Int) - 1) * r.step, r.start - r.step, -r.step⟩

/-- `range == range` (CPython `range_equals`). -/
def beq (a b : PyRange) : Bool :=
  if a.len ≠ b.len then false
  else if a.len = 0 then true
  else if a.start ≠ b.start then false
  else if a.len = 1 then true
  else decide (a.step = b.step)

/-- The triple hashed by `hash(range)` (CPython `range_hash`): `(len, None, None)` for a null
range, `(len, start, None)` for a single element, else `(len, start, step)`. -/
def hashKey (r : PyRange) : Nat × Option Int × Option Int :=
  if r.len = 0 then (0, none, none)
  else if r.len = 1 then (1, some r.start, none)
  else (r.len, some r.start, some r.step)

end PyRange

/-- Python `list[slice]`: the items at the positions `range(*slice.indices(len(list)))`. -/
def pyListSlice {α : Type} (l : List α) (s : PySlice) : PyM (List α) :=
  match s.indices l.length with
  | .error e => .error e
  | .ok (a, b, st) => .ok ((PyRange.items ⟨a, b, st⟩).filterMap fun i => l[i.toNat]?)

end Verif
