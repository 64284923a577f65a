import Verif.Model.Handle
/-!
# Values between cocotb and the simulator

What the implementations of the GPI do with the values of `set_signal_val_*` and what they make of the values of the
simulator for `get_signal_val_*`: VHPI (src/cocotb/share/lib/gpi/vhpi/VhpiSignal.cpp), FLI
(src/cocotb/share/lib/gpi/fli/FliObjHdl.cpp) and VPI (src/cocotb/share/lib/gpi/vpi/VpiSignal.cpp).

A write ends in at most one call of the simulator; `none` says that there is no call (the function logs an error and
returns -1, which gpi_set_signal_value_*, GpiCommon.cpp:622-647, ignore). That the simulator itself refuses a value is
not modelled. Memory of the simulator and of C++ is a list; `buf` is what a buffer holds before the call.
-/
namespace Verif.SimVal
open Verif Verif.Hdl

/-- `static_cast<int32_t>(value)`, bind.cpp:562. -/
def toI32 (v : Int) : Int := (v + 2 ^ 31) % 2 ^ 32 - 2 ^ 31

/-- `value & (1 << i)` for an `int32_t` and `i < 32`. -/
def bitSet (v : Int) (i : Nat) : Bool := v / 2 ^ i % 2 == 1

/-- `strncpy(dst, src, n)` of a C string. -/
def strncpy (src : List Byte) (n : Nat) : List Byte :=
  let s := (src.takeWhile (· ≠ 0)).take n
  s ++ List.replicate (n - s.length) 0

/-- The bytes of a C string. -/
def cString (b : List Byte) : List Byte := b.takeWhile (· ≠ 0)

/-! ## VHPI -/

/-- Formats of objects, vhpi_user.h:127-150: those the two `initialise` accept. `logic` and `logicVec`:
VhpiLogicSignalObjHdl::initialise, VhpiSignal.cpp:135-184; the others: VhpiSignalObjHdl::initialise,
VhpiSignal.cpp:54-133. -/
inductive VFmt where
  | logic | logicVec | enum | smallEnum | int | longInt | char | real | str
  deriving DecidableEq, Repr

/-- An object. `size`: vhpiSizeP. -/
structure VObj where
  fmt : VFmt
  size : Nat
  deriving DecidableEq, Repr

/-- `m_num_elems`, VhpiSignal.cpp:83-111 and 160. -/
def VObj.numElems (o : VObj) : Nat :=
  match o.fmt with
  | .int => 32
  | .enum => 32
  | .longInt => 64
  | .real => 64
  | .smallEnum => 8
  | .char => 8
  | .str => o.size
  | .logic => o.size
  | .logicVec => o.size

/-- The value handed to or received from the simulator. -/
inductive VVal where
  | enumv (c : Nat)
  | enumvs (l : List Nat)
  | smallenumv (c : Nat)
  | intg (v : Int)
  | longintg (v : Int)
  | ch (b : Byte)
  | real (d : Datum)
  | str (b : List Byte)
  deriving DecidableEq, Repr

inductive PutMode where
  | depositPropagate | forcePropagate | release
  deriving DecidableEq, Repr

/-- `map_put_value_mode`, VhpiSignal.cpp:35-52. -/
def mapPutValueMode : SetAct → PutMode
  | .deposit => .depositPropagate
  | .noDelay => .depositPropagate
  | .force => .forcePropagate
  | .release => .release

/-- `chr2vhpi`, VhpiSignal.cpp:188-218, with the numbers of vhpi_user.h:837-845. -/
def chr2vhpi : Char → Nat
  | '0' => 2
  | '1' => 3
  | 'U' => 0
  | 'u' => 0
  | 'Z' => 4
  | 'z' => 4
  | 'X' => 1
  | 'x' => 1
  | 'W' => 5
  | 'w' => 5
  | 'L' => 6
  | 'l' => 6
  | 'H' => 7
  | 'h' => 7
  | '-' => 8
  | _ => 8

/-- The loop over the bits, VhpiSignal.cpp:232-235: `buf[n - i - 1] = value & (1 << i) ? one : zero`. -/
def putBits (zero one : Nat) (n : Nat) (v : Int) (buf : List Nat) : List Nat :=
  (List.range n).foldl (fun b i => b.set (n - i - 1) (if bitSet v i then one else zero)) buf

/-- The loop over the characters, VhpiSignal.cpp:278-284: `buf[i] = f(*iter)`. -/
def putChars (f : Char → Nat) : PyStr → Nat → List Nat → List Nat
  | [], _, buf => buf
  | c :: s, i, buf => putChars f s (i + 1) (buf.set i (f c))

/-- `value.c_str()[0]`. -/
def firstChar (s : PyStr) : Char := s.headD '\x00'

/-- `set_signal_value(int32_t, …)` up to the call of vhpi_put_value: VhpiLogicSignalObjHdl, VhpiSignal.cpp:221-247, and
VhpiSignalObjHdl, VhpiSignal.cpp:306-353. `vhpiCharT` is `char`, which is signed here: its range is -128 to 127. -/
def vhpiSetInt (o : VObj) (buf : List Nat) (v : Int) : Option VVal :=
  match o.fmt with
  | .logic => some (.enumv (if v ≠ 0 then 3 else 2))
  | .logicVec => some (.enumvs (putBits 2 3 o.numElems v buf))
  | .enum => some (.enumv (v % 2 ^ 32).toNat)
  | .smallEnum => some (.smallenumv (v % 2 ^ 8).toNat)
  | .int => some (.intg v)
  | .char => if v > 127 ∨ v < -128 then none else some (.ch (Fin.ofNat 256 (v % 256).toNat))
  | .longInt => none
  | .real => none
  | .str => none

/-- `set_signal_value_binstr` up to the call: VhpiSignal.cpp:257-294 and 387-423. -/
def vhpiSetBin (o : VObj) (buf : List Nat) (s : PyStr) : Option VVal :=
  match o.fmt with
  | .logic => some (.enumv (chr2vhpi (firstChar s)))
  | .enum => some (.enumv (chr2vhpi (firstChar s)))
  | .logicVec => if s.length ≠ o.numElems then none else some (.enumvs (putChars chr2vhpi s 0 buf))
  | _ => none

/-- `set_signal_value(double, …)` up to the call: VhpiSignal.cpp:363-377. -/
def vhpiSetReal (o : VObj) (d : Datum) : Option VVal :=
  match o.fmt with
  | .real => some (.real d)
  | _ => none

/-- `set_signal_value_str` up to the call: VhpiSignal.cpp:435-452. -/
def vhpiSetStr (o : VObj) (b : List Byte) : Option VVal :=
  match o.fmt with
  | .str => some (.str (strncpy b o.numElems))
  | _ => none

/-- `set_signal_val_*` (bind.cpp:514-564) of an object of the VHPI: the value and mode of vhpi_put_value. The classes
VhpiLogicSignalObjHdl and VhpiSignalObjHdl have no other set functions. -/
def vhpiSet (o : VObj) (buf : List Nat) (a : SetAct) (d : Datum) : Option (VVal × PutMode) :=
  let v := match d with
    | .int v => vhpiSetInt o buf (toI32 v)
    | .bin s => vhpiSetBin o buf s
    | .realInt _ => vhpiSetReal o d
    | .realFloat _ => vhpiSetReal o d
    | .str b => vhpiSetStr o b
  v.map fun x => (x, mapPutValueMode a)

/-- The string of a value in the format vhpiBinStrVal: the characters of logic values; the bits of integers, as many as
the object has. -/
def vhpiBinStr (n : Nat) : VVal → List Logic
  | .enumv c => (Logic.all[c]?).toList
  | .enumvs l => l.filterMap (Logic.all[·]?)
  | .longintg v => (List.range n).map fun k => if bitSet v (n - 1 - k) then .F1 else .F0
  | .intg v => (List.range n).map fun k => if bitSet v (n - 1 - k) then .F1 else .F0
  | _ => []

/-- The value in the format vhpiIntVal: the number, or the position of an enumeration literal (of a character). -/
def vhpiIntVal : VVal → Int
  | .intg v => v
  | .longintg v => v
  | .enumv c => c
  | .smallenumv c => c
  | .ch b => b.val
  | _ => 0

/-- A double read from the simulator is the one written; an int was converted by Python (opaque). -/
def realBits : VVal → Nat
  | .real (.realFloat b) => b
  | _ => 0

/-- What `get_signal_val_*` return for an object with value `x`: get_signal_value_binstr, VhpiSignal.cpp:463-489,
_str 491-517, _real 519-529, _long 531-542 (`static_cast<int32_t>`). -/
def vhpiReading (o : VObj) (x : VVal) : Reading where
  bin := if o.fmt = .real ∨ o.numElems = 0 then [] else vhpiBinStr o.numElems x
  long := toI32 (vhpiIntVal x)
  real := realBits x
  str := match o.fmt, x with
    | .str, .str b => if o.numElems = 0 then [] else cString b
    | _, _ => []

/-- `get_signed`, VhpiSignal.cpp:558-564: `GPI_INTEGER` or not. -/
def vhpiSigned (isInteger : Bool) : Sgn := if isInteger then .signed else .unknown

/-! ## FLI -/

/-- The classes of value objects, FliImpl.hpp:209-390. -/
inductive FKind where
  | enum | logic | logicArr | int | real | string
  deriving DecidableEq, Repr

/-- An object: `lits` are the literals of its (element) type, with quotes (mti_GetEnumValues), `size` is mti_TickLength
of its type if it is an array. -/
structure FObj where
  kind : FKind
  isVar : Bool
  size : Nat
  lits : List PyStr

/-- `m_num_elems`: FliObjHdl.cpp:187 (enum), 264 and 274 (logic), 547 (int), 634 (real), 702 (string). -/
def FObj.numElems (o : FObj) : Nat :=
  match o.kind with
  | .enum => 1
  | .logic => 1
  | .logicArr => o.size
  | .int => 32
  | .real => 1
  | .string => o.size

/-- `m_enum_map[c]`: the table is filled in FliObjHdl.cpp:288-291, `m_enum_map[m_value_enum[i][1]] = i`; an entry that is
not there is created with the value 0. -/
def enumMap (lits : List PyStr) (c : Char) : Nat :=
  (List.range lits.length).foldl (fun m i => if (lits.getD i []).getD 1 '\x00' = c then i else m) 0

/-- The value handed to mti_SetSignalValue and mti_SetVarValue. -/
inductive FVal where
  | scalar (v : Int)
  | codes (l : List Nat)
  | real (d : Datum)
  | chars (b : List Byte)
  deriving DecidableEq, Repr

/-- Calls of the simulator. -/
inductive FCall where
  | setVar (v : FVal)
  | setSignal (v : FVal)
  | force (text : PyStr)
  | release
  deriving DecidableEq, Repr

/-- The switches over the action, e.g. FliObjHdl.cpp:218-257. `text` is what mti_ForceSignal gets. -/
def fliAct (o : FObj) (a : SetAct) (v : FVal) (text : PyStr) : Option FCall :=
  if o.isVar then
    match a with
    | .deposit => some (.setVar v)
    | .noDelay => some (.setVar v)
    | .force => none
    | .release => none
  else
    match a with
    | .deposit => some (.setSignal v)
    | .noDelay => some (.setSignal v)
    | .force => some (.force text)
    | .release => some .release

/-- Decimal digits. -/
def decDigits (n : Nat) : PyStr := Nat.toDigits 10 n

/-- `to_string(abs(value))` of an `int32_t`: `abs` of the least number is that number (it overflows). -/
def absText (v : Int) : PyStr :=
  if v = -(2 ^ 31) then '-' :: decDigits (2 ^ 31) else decDigits v.natAbs

/-- FliEnumObjHdl::set_signal_value, FliObjHdl.cpp:210-258. -/
def fliEnumSetInt (o : FObj) (a : SetAct) (v : Int) : Option FCall :=
  if v > o.lits.length ∨ v < 0 then none
  else fliAct o a (.scalar v) ("10#".toList ++ absText v)

/-- FliLogicObjHdl::set_signal_value, FliObjHdl.cpp:335-429. -/
def fliLogicSetInt (o : FObj) (buf : List Nat) (a : SetAct) (v : Int) : Option FCall :=
  if o.kind = .logic then
    fliAct o a (.scalar (if v ≠ 0 then enumMap o.lits '1' else enumMap o.lits '0'))
      (if v ≠ 0 then "2#1".toList else "2#0".toList)
  else
    fliAct o a (.codes (putBits (enumMap o.lits '0') (enumMap o.lits '1') o.numElems v buf))
      ("2#".toList ++ (List.range o.numElems).reverse.map fun i => if bitSet v i then '1' else '0')

/-- FliLogicObjHdl::set_signal_value_binstr, FliObjHdl.cpp:431-541. -/
def fliLogicSetBin (o : FObj) (buf : List Nat) (a : SetAct) (s : PyStr) : Option FCall :=
  if o.kind = .logic then
    if s.length ≠ 1 then none
    else fliAct o a (.scalar (enumMap o.lits (firstChar s))) ("2#".toList ++ s)
  else if s.length ≠ o.numElems then none
  else fliAct o a (.codes (putChars (enumMap o.lits) s 0 buf)) ("2#".toList ++ s)

/-- FliIntObjHdl::set_signal_value, FliObjHdl.cpp:585-630. -/
def fliIntSetInt (o : FObj) (a : SetAct) (v : Int) : Option FCall :=
  fliAct o a (.scalar v) ((if v < 0 then ['-'] else []) ++ "10#".toList ++ absText v)

/-- FliRealObjHdl::set_signal_value, FliObjHdl.cpp:654-695: forcing is not possible. -/
def fliRealSet (o : FObj) (a : SetAct) (d : Datum) : Option FCall :=
  if a = .force then none else fliAct o a (.real d) []

/-- The characters of bytes. -/
def latin1 (b : List Byte) : PyStr := b.map fun x => Char.ofNat x.val

/-- FliStringObjHdl::set_signal_value_str, FliObjHdl.cpp:728-769. -/
def fliStrSet (o : FObj) (a : SetAct) (b : List Byte) : Option FCall :=
  fliAct o a (.chars (strncpy b o.numElems)) (latin1 (cString b))

/-- `set_signal_val_*` of an object of the FLI. Set functions a class does not override are those of FliValueObjHdl,
FliObjHdl.cpp:126-156, which do nothing. -/
def fliSet (o : FObj) (buf : List Nat) (a : SetAct) (d : Datum) : Option FCall :=
  match o.kind, d with
  | .enum, .int v => fliEnumSetInt o a (toI32 v)
  | .logic, .int v => fliLogicSetInt o buf a (toI32 v)
  | .logicArr, .int v => fliLogicSetInt o buf a (toI32 v)
  | .logic, .bin s => fliLogicSetBin o buf a s
  | .logicArr, .bin s => fliLogicSetBin o buf a s
  | .int, .int v => fliIntSetInt o a (toI32 v)
  | .real, .realInt v => fliRealSet o a (.realInt v)
  | .real, .realFloat b => fliRealSet o a (.realFloat b)
  | .string, .str b => fliStrSet o a b
  | _, _ => none

/-- The element of a logic value: `m_value_enum[c][1]`, FliObjHdl.cpp:299-329, as the logic value Python makes of it. -/
def litOf (lits : List PyStr) (c : Nat) : Option Logic := do
  let s ← lits[c]?
  let ch ← s[1]?
  Logic.ofLiteralChar ch

/-- What `get_signal_val_*` return for an object with value `x`: FliEnumObjHdl, FliObjHdl.cpp:202-208; FliLogicObjHdl,
299-333; FliIntObjHdl, 554-583; FliRealObjHdl, 641-652; FliStringObjHdl, 713-726. -/
def fliReading (o : FObj) (x : FVal) : Reading where
  bin := match o.kind, x with
    | .logic, .scalar v => (litOf o.lits v.toNat).toList
    | .logicArr, .codes l => l.filterMap (litOf o.lits)
    | .int, .scalar v => (List.range 32).map fun k => if bitSet v (31 - k) then .F1 else .F0
    | _, _ => []
  long := match x with
    | .scalar v => v
    | _ => 0
  real := match x with
    | .real (.realFloat b) => b
    | _ => 0
  str := match o.kind, x with
    | .string, .chars b => cString (strncpy b o.numElems)
    | _, _ => []

/-- `get_signed`: FliImpl.hpp:322-327 for integers, gpi_priv.hpp:78 for the others. -/
def fliSigned (o : FObj) : Sgn := if o.kind = .int then .signed else .unknown

/-! ## VPI -/

/-- The value of vpi_put_value with its format, VpiSignal.cpp:139-181. -/
inductive PVal where
  | int (v : Int)
  | bin (s : PyStr)
  | real (d : Datum)
  | str (b : List Byte)
  deriving DecidableEq, Repr

inductive PFlag where
  | noDelay | inertialDelay | force | release
  deriving DecidableEq, Repr

/-- Which simulator, and whether the object is a string variable. -/
structure PCfg where
  questaOrXcelium : Bool
  stringVar : Bool

/-- `set_signal_val_*` of an object of the VPI, VpiSignal.cpp:139-233. `cur`: what vpi_get_value stores into a value of
the given format. -/
def vpiSet (c : PCfg) (cur : PVal → PVal) (a : SetAct) (d : Datum) : PVal × PFlag :=
  let v := match d with
    | .int v => .int (toI32 v)
    | .bin s => .bin s
    | .realInt v => .real (.realInt v)
    | .realFloat b => .real (.realFloat b)
    | .str b => .str b
  match a with
  | .deposit => if c.questaOrXcelium && c.stringVar then (v, .noDelay) else (v, .inertialDelay)
  | .force => (v, .force)
  | .release => (cur v, .release)
  | .noDelay => (v, .noDelay)

end Verif.SimVal
