/-!
# Python basics: exceptions as values, slices

Semantics of the Python language and standard library that the modelled code relies on.
-/
namespace Verif

/-- Exception types raised by the modelled code (messages are not modelled). -/
inductive PyErr where
  | valueError | typeError | indexError | keyError | runtimeError | overflowError
  | notImplemented | attributeError | invalidState | queueFull | queueEmpty | zeroDivision
  deriving DecidableEq, Repr

deriving instance DecidableEq for Except

/-- Result of a Python call that may raise. -/
abbrev PyM (α : Type) := Except PyErr α

/-- `true` when the call returned normally. -/
def Except.succeeds {ε α : Type} : Except ε α → Bool
  | .ok _ => true
  | .error _ => false

/-- A Python `slice` object with integer or missing parts. -/
structure PySlice where
  start : Option Int
  stop : Option Int
  step : Option Int
  deriving DecidableEq, Repr

/-- Clamping of one slice bound, as in CPython `PySlice_AdjustIndices`. -/
def PySlice.adjust (len lower upper : Int) (v : Int) : Int :=
  if v < 0 then
    let v := v + len
    if v < lower then lower else v
  else if v > upper then upper else v

/-- `slice.indices(len)` of CPython: `(start, stop, step)`; `ValueError` when the step is 0. -/
def PySlice.indices (s : PySlice) (len : Nat) : PyM (Int × Int × Int) :=
  let step := s.step.getD 1
  if step = 0 then .error .valueError
  else
    let lower : Int := if step < 0 then -1 else 0
    let upper : Int := if step < 0 then (len : Int) - 1 else len
    let start := match s.start with
      | none => if step < 0 then upper else lower
      | some v => PySlice.adjust len lower upper v
    let stop := match s.stop with
      | none => if step < 0 then lower else upper
      | some v => PySlice.adjust len lower upper v
    .ok (start, stop, step)

/-- Python indexing of a sequence of length `len`: the position denoted by `i`, if any. -/
def pyIndex (len : Nat) (i : Int) : Option Nat :=
  if 0 ≤ i ∧ i < len then some i.toNat
  else if i < 0 ∧ 0 ≤ i + len then some (i + len).toNat
  else none

/-- Python `list[i]`. -/
def pyListGet {α : Type} (l : List α) (i : Int) : PyM α :=
  match pyIndex l.length i with
  | some k => match l[k]? with
    | some v => .ok v
    | none => .error .indexError
  | none => .error .indexError

end Verif
