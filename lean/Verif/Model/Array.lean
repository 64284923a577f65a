import Verif.Model.Range
import Verif.Py.List
/-!
# `cocotb.types.Array` (src/cocotb/types/_array.py) and the mixin methods of
`AbstractArray` (src/cocotb/types/_abstract_array.py)

Elements are of a type with decidable equality: Python `==` between elements is modelled as
equality (simplification: user types with a non-structural `__eq__` are not modelled).
-/
namespace Verif

/-- The `range` constructor argument: missing, an integer length, a `Range`, or something else. -/
inductive RangeArg where
  | none
  | int (n : Int)
  | range (r : Range)
  | other

/-- An `Array` object, _array.py:140. -/
structure Arr (α : Type) where
  value : List α
  range : Range
  warn : Bool

namespace Arr
variable {α : Type}

/-- `Array.__init__`, _array.py:142-160. -/
def new (value : List α) (range : RangeArg) : PyM (Arr α) :=
  let check (r : Range) : PyM (Arr α) :=
    if value.length ≠ r.len then .error .valueError else .ok ⟨value, r, false⟩
  match range with
  | .none => .ok ⟨value, .mk3 0 .to ((value.length : Int) - 1), false⟩
  | .int n => check (.mk3 0 .to (n - 1))
  | .range r => check r
  | .other => .error .typeError

/-- `Array._from_handle`, _array.py:162-170. -/
def fromHandle (value : List α) (range : Range) (warn : Bool) : Arr α := ⟨value, range, warn⟩

/-- `len(array)`: `len(self.range)`, _abstract_array.py:66-67. -/
def len (a : Arr α) : Nat := a.range.len

/-- Assignment to `array.range`, _array.py:177-186. -/
def setRange (a : Arr α) (r : Range) : PyM (Arr α) :=
  if r.len ≠ a.len then .error .valueError else .ok { a with range := r }

/-- `Array._translate_index`, _array.py:282-286 (`ValueError` becomes `IndexError`). -/
def translate (a : Arr α) (i : Int) : PyM Int :=
  match a.range.index i none none with
  | .ok k => .ok k
  | .error .valueError => .error .indexError
  | .error e => .error e

/-- The warning text of `a[i]`, _array.py:215-220: evaluating it indexes the range by position and
may raise. -/
def warnItem (a : Arr α) (i : Int) : PyM Unit :=
  if a.warn then
    match a.range.getItem i with
    | .ok _ => .ok ()
    | .error e => .error e
  else .ok ()

/-- `array[i]`, _array.py:214-222. -/
def getItem (a : Arr α) (i : Int) : PyM α := do
  a.warnItem i
  let k ← a.translate i
  pyListGet a.value k

/-- The warning text of `a[i:j]`, _array.py:224-231. -/
def warnSlice (a : Arr α) (start stop : Option Int) : PyM Unit :=
  if a.warn then do
    let _ ← a.range.getItem (start.getD 0)
    let _ ← a.range.getItem (stop.getD ((a.len : Int) - 1))
    .ok ()
  else .ok ()

/-- The bounds part common to reading and writing a slice, _array.py:232-241 and 258-267. -/
def sliceBounds (a : Arr α) (s : PySlice) : PyM (Int × Int × Int × Int) :=
  let start := s.start.getD a.range.left
  let stop := s.stop.getD a.range.right
  if s.step.isSome then .error .indexError
  else do
    let si ← a.translate start
    let sj ← a.translate stop
    if si > sj then .error .indexError else .ok (start, stop, si, sj)

/-- `array[slice]`, _array.py:223-244. -/
def getSlice (a : Arr α) (s : PySlice) : PyM (Arr α) := do
  a.warnSlice s.start s.stop
  let (start, stop, si, sj) ← a.sliceBounds s
  let value := pyListGetSlice a.value si (sj + 1)
  let d ← a.range.direction
  new value (.range (.mk3 start d stop))

/-- `array[i] = v`, _array.py:254-256. The array is unchanged when an exception is raised. -/
def setItem (a : Arr α) (i : Int) (v : α) : PyM (Arr α) := do
  let k ← a.translate i
  let l ← pyListSet a.value k v
  .ok { a with value := l }

/-- `array[slice] = vs`, _array.py:257-273. The array is unchanged when an exception is raised. -/
def setSlice (a : Arr α) (s : PySlice) (vs : List α) : PyM (Arr α) := do
  let (_, _, si, sj) ← a.sliceBounds s
  if (vs.length : Int) ≠ sj - si + 1 then .error .valueError
  else .ok { a with value := pyListSetSlice a.value si (sj + 1) vs }

/-- `copy.copy(array)`, _array.py:288-289. -/
def copy (a : Arr α) : PyM (Arr α) := new a.value (.range a.range)

/-- `iter(array)` run to exhaustion, _array.py:188-189. -/
def iter (a : Arr α) : List α := a.value

/-- `reversed(array)` run to exhaustion, _array.py:191-192. -/
def reversed (a : Arr α) : List α := a.value.reverse

variable [DecidableEq α]

/-- `v in array`, _array.py:194-195. -/
def contains (a : Arr α) (v : α) : Bool := decide (v ∈ a.value)

/-- `array == array`, _array.py:198-199. -/
def beq (a b : Arr α) : Bool := decide (a.value = b.value)

/-- `array == list` (also tuple), _array.py:200-203. -/
def beqList (a : Arr α) (l : List α) : Bool := decide (a.value = l)

/-- The loop of `index` over the remaining range values, _abstract_array.py:112-115. -/
def indexLoop (a : Arr α) (v : α) : List Int → PyM Int
  | [] => .error .valueError
  | i :: is => do
    let x ← a.getItem i
    if x = v then .ok i else indexLoop a v is

/-- `array.index(v, start, stop)`, _abstract_array.py:89-115. -/
def index (a : Arr α) (v : α) (start stop : Option Int) : PyM Int := do
  let d ← a.range.direction
  indexLoop a v (Range.mk3 (start.getD a.range.left) d (stop.getD a.range.right)).items

/-- `array.count(v)`, _abstract_array.py:117-130. -/
def count (a : Arr α) (v : α) : Nat :=
  a.iter.foldl (fun n x => if x = v then n + 1 else n) 0

end Arr
end Verif
