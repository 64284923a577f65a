import Verif.Model.SimValue
import Verif.Spec.Handle
/-!
# Specification of values between cocotb and the simulator
-/
namespace Verif.SimSpec
open Verif Verif.Hdl Verif.Spec

/-- The elements that a Python value means for an object with `n` logic elements: the bits of an int that fits, the
characters of a string, the elements of a LogicArray, a Logic. -/
def meant (n : Nat) : PyVal → Option (List Logic)
  | .int v => if -(2 ^ (n - 1)) ≤ v ∧ v < 2 ^ n then some (bitsOfInt n v) else none
  | .str s => match elementsOf s with
    | some l => if l.length = n then some l else none
    | none => none
  | .larr l => if l.length = n then some l else none
  | .logic o => if n = 1 then some [o.v] else none
  | _ => none

/-- The element that a Python value means for an object that is one logic element. -/
def meantScalar : PyVal → Option Logic
  | .int v => if v = 0 then some .F0 else if v = 1 then some .F1 else none
  | .str s => Logic.ofLiteralStr s
  | .larr [x] => some x
  | .logic o => some o.v
  | _ => none

/-- Position of a value in the declaration of std_ulogic: `('U', 'X', '0', '1', 'Z', 'W', 'L', 'H', '-')`. -/
def position : Logic → Nat
  | .U => 0 | .X => 1 | .F0 => 2 | .F1 => 3 | .Z => 4 | .W => 5 | .L => 6 | .H => 7 | .D => 8

/-- The literals of std_ulogic. -/
def stdLits : List PyStr :=
  ["'U'".toList, "'X'".toList, "'0'".toList, "'1'".toList, "'Z'".toList, "'W'".toList, "'L'".toList, "'H'".toList,
    "'-'".toList]

/-- The literals of bit. -/
def bitLits : List PyStr := ["'0'".toList, "'1'".toList]

/-- Position of a value in the declaration of bit. -/
def bitPosition : Logic → Nat
  | .F1 => 1
  | _ => 0

/-- The integers of 32 bits. -/
def is32 (v : Int) : Prop := -(2 ^ 31) ≤ v ∧ v < 2 ^ 31

/-- A decimal number as the FLI writes numbers: `10#17`, `-10#17`. -/
def decimal (v : Int) : PyStr := (if v < 0 then ['-'] else []) ++ "10#".toList ++ Nat.toDigits 10 v.natAbs

/-- The object class of Python for an object of the VHPI (the kind of the object decides between integer and
enumeration: `isInteger`). -/
def vhpiLeaf (o : SimVal.VObj) (isInteger : Bool) : Leaf :=
  match o.fmt with
  | .logic => .logic
  | .logicVec => .larray o.numElems
  | .real => .real
  | .str => .fixedString o.numElems
  | _ => if isInteger then .integer o.numElems (SimVal.vhpiSigned true) else .enum o.numElems (SimVal.vhpiSigned false)

/-- The object class of Python for an object of the FLI. -/
def fliLeaf (o : SimVal.FObj) : Leaf :=
  match o.kind with
  | .logic => .logic
  | .logicArr => .larray o.numElems
  | .real => .real
  | .string => .fixedString o.numElems
  | .int => .integer o.numElems (SimVal.fliSigned o)
  | .enum => .enum o.numElems (SimVal.fliSigned o)

/-- How the VHPI is told to write. -/
def putMode : SetAct → SimVal.PutMode
  | .force => .forcePropagate
  | .release => .release
  | _ => .depositPropagate

/-- The call of the FLI that writes `x` to a signal; `text` is the value as text. -/
def signalCall (x : SimVal.FVal) (text : PyStr) : SetAct → SimVal.FCall
  | .force => .force text
  | .release => .release
  | _ => .setSignal x

/-- The flag with which the VPI is told to write (but see string variables). -/
def putFlag : SetAct → SimVal.PFlag
  | .deposit => .inertialDelay
  | .noDelay => .noDelay
  | .force => .force
  | .release => .release

/-- The elements that a value of the VPI puts on an object of `n` logic elements: the low bits of an integer, or one
element for each character. -/
def vpiElements (n : Nat) : SimVal.PVal → Option (List Logic)
  | .int v => some (bitsOfInt n v)
  | .bin s => if s.length = n then s.mapM Logic.ofLiteralChar else none
  | _ => none

end Verif.SimSpec
