import Verif.Model.LogicArray
/-!
# Reading and writing simulator objects (src/cocotb/handle.py)

The simulator is represented by what the code asks of it: the calls `set_signal_val_*` (recorded in
`HS.driven` in the order they are made), the values `get_signal_val_*` returns (`Sim`), whether it
can register a ReadWrite callback, and which GPI trigger fired last (`HS.phase`).
-/
namespace Verif.Hdl
open Verif

/-- `_GPISetAction`, handle.py:608-613. -/
inductive SetAct where
  | deposit | force | release | noDelay
  deriving DecidableEq, Repr

/-- `_GPISetAction.OLD_IMMEDIATE = 0`, handle.py:614: `DEPOSIT = 0` was defined first, so in a Python
`Enum` this name is an alias of the same member. -/
abbrev SetAct.oldImmediate : SetAct := .deposit

/-- What `isinstance(current_gpi_trigger(), …)` distinguishes, handle.py:804 and 875;
_gpi_triggers.py:388-395. -/
inductive Phase where
  | readWrite | readOnly | other
  deriving DecidableEq, Repr

/-- `self._handle.get_signed()`, handle.py:1223-1244: 0, 1, or -1 when the simulator cannot tell. -/
inductive Sgn where
  | unsigned | signed | unknown
  deriving DecidableEq, Repr

/-- The value-object classes that are one object for the simulator, with their `len`.
`logic` LogicObject (1113), `larray` LogicArrayObject (1247), `real` RealObject (1431), `enum`
EnumObject (1485), `integer` IntegerObject (1580), `string` StringObject (1695), `fixedString`
FixedStringObject (1774). -/
inductive Leaf where
  | logic
  | larray (n : Nat)
  | integer (n : Nat) (s : Sgn)
  | enum (n : Nat) (s : Sgn)
  | real
  | string
  | fixedString (n : Nat)
  deriving DecidableEq, Repr

/-- Type of a value object: a leaf, or an ArrayObject (handle.py:972) with the bounds and direction
its `range` is built from (handle.py:162-170; a simulator reporting no direction, which makes `range`
raise RuntimeError, is not modelled). HDL arrays are homogeneous: every element has the same type. -/
inductive Ty where
  | leaf (l : Leaf)
  | arr (left : Int) (dir : Dir) (right : Int) (elem : Ty)

/-- A simulator handle: the object found at `idx` (a sequence of array indexes) inside signal `sig`.
Handles are equal exactly when they are the same simulator object, handle.py:132-138. -/
structure Ref where
  sig : Nat
  idx : List Int
  deriving DecidableEq, Repr

/-- `self._handle.get_handle_by_index(i)`. -/
def Ref.child (r : Ref) (i : Int) : Ref := ⟨r.sig, r.idx ++ [i]⟩

/-- Python values passed to or returned by the handles. A `LogicArray` is given by its elements
(`str` of it are their characters, property C13); a `float` is an opaque bit pattern. -/
inductive PyVal where
  | int (v : Int)
  | float (bits : Nat)
  | str (s : PyStr)
  | logic (o : Logic.Obj)
  | larr (l : List Logic)
  | bytes (b : List Byte)
  | bytearray (b : List Byte)
  | list (vs : List PyVal)
  | array (r : Range) (vs : List PyVal)
  | other

/-- The elements of a value that has `len` and can be iterated; `none` for a value without `len`. -/
def PyVal.elems : PyVal → Option (List PyVal)
  | .str s => some (s.map fun c => .str [c])
  | .larr l => some (l.map fun x => .logic ⟨.logic, x⟩)
  | .bytes b => some (b.map fun x => .int x.val)
  | .bytearray b => some (b.map fun x => .int x.val)
  | .list vs => some vs
  | .array _ vs => some vs
  | _ => none

/-- The argument handed to `set_signal_val_int`, `_binstr`, `_real` or `_str`. -/
inductive Datum where
  | int (v : Int)
  | bin (s : PyStr)
  | realInt (v : Int)
  | realFloat (bits : Nat)
  | str (b : List Byte)
  deriving DecidableEq, Repr

/-- `_min_val <= value` for `_min_val = -(2 ** (n - 1))`, written without the division so that it is
exact for `n = 0` too (where Python computes `-0.5`). -/
def geSignedMin (n : Nat) (v : Int) : Bool := decide (-(2 ^ n : Int) ≤ 2 * v)

/-- `value <= _max_val` for `_max_val = 2 ** (n - 1) - 1`, again exact for `n = 0`. -/
def leSignedMax (n : Nat) (v : Int) : Bool := decide (2 * v ≤ 2 ^ n - 2)

/-- `value <= 2 ** n - 1`. -/
def leUnsignedMax (n : Nat) (v : Int) : Bool := decide (v ≤ 2 ^ n - 1)

/-- `_SignednessObjectMixin._min_val`, handle.py:1230-1236, compared with `value`. -/
def geMin (n : Nat) (s : Sgn) (v : Int) : Bool :=
  match s with
  | .unsigned => decide (0 ≤ v)
  | _ => geSignedMin n v

/-- `_SignednessObjectMixin._max_val`, handle.py:1238-1244, compared with `value`. -/
def leMax (n : Nat) (s : Sgn) (v : Int) : Bool :=
  match s with
  | .signed => leSignedMax n v
  | _ => leUnsignedMax n v

/-- LogicArrayObject._set_value for an int, handle.py:1288-1302 with `_min_val`/`_max_val` of
1402-1410, followed by the length check 1321-1324 when the value becomes a string. -/
def larrayInt (n : Nat) (v : Int) : PyM Datum :=
  if !(geSignedMin n v && leUnsignedMax n v) then .error .valueError
  else if n ≤ 32 then .ok (.int v)
  else
    let s := pyFormatBin n (if v < 0 then v + 2 ^ n else v)
    if s.length ≠ n then .error .valueError else .ok (.bin s)

/-- Length check and hand-over of a string in LogicArrayObject._set_value, handle.py:1321-1325. -/
def larrayStr (n : Nat) (s : PyStr) : PyM Datum :=
  if s.length ≠ n then .error .valueError else .ok (.bin s)

/-- IntegerObject._set_value, handle.py:1625-1653. -/
def integerInt (n : Nat) (s : Sgn) (v : Int) : PyM Datum :=
  if !(geMin n s v && leMax n s v) then .error .valueError
  else if n ≤ 32 then .ok (.int v)
  else .ok (.bin (pyFormatBin n (if v < 0 then v + 2 ^ n else v)))

/-- EnumObject._set_value, handle.py:1509-1533: the string form is not wrapped. -/
def enumInt (n : Nat) (s : Sgn) (v : Int) : PyM Datum :=
  if !(geMin n s v && leMax n s v) then .error .valueError
  else if n ≤ 32 then .ok (.int v)
  else .ok (.bin (pyFormatBin n v))

/-- The conversion part of the `_set_value` methods: LogicObject 1135-1159, LogicArrayObject
1282-1325, RealObject 1443-1453, EnumObject 1509-1533, IntegerObject 1625-1653, StringObject
1709-1718, FixedStringObject 1781-1795. -/
def leafDatum : Leaf → PyVal → PyM Datum
  | .logic, .int v => do let o ← Logic.new .logic (.int v); .ok (.bin [o.v.chr])
  | .logic, .str s => do let o ← Logic.new .logic (.str s); .ok (.bin [o.v.chr])
  | .logic, .larr l => if l.length ≠ 1 then .error .valueError else .ok (.bin (l.map Logic.chr))
  | .logic, .logic o => .ok (.bin [o.v.chr])
  | .logic, _ => .error .typeError
  | .larray n, .int v => larrayInt n v
  | .larray n, .str s =>
      if (LA.normStr s).any (fun c => !decide (c ∈ LA.strLiterals)) then .error .valueError
      else larrayStr n (LA.normStr s)
  | .larray n, .larr l => larrayStr n (l.map Logic.chr)
  | .larray n, .logic o => larrayStr n [o.v.chr]
  | .larray _, _ => .error .typeError
  | .integer n s, .int v => integerInt n s v
  | .integer _ _, _ => .error .typeError
  | .enum n s, .int v => enumInt n s v
  | .enum _ _, _ => .error .typeError
  | .real, .int v => .ok (.realInt v)
  | .real, .float b => .ok (.realFloat b)
  | .real, _ => .error .typeError
  | .string, .bytes b => .ok (.str b)
  | .string, .bytearray b => .ok (.str b)
  | .string, _ => .error .typeError
  | .fixedString n, .bytes b => if b.length > n then .error .valueError else .ok (.str b)
  | .fixedString n, .bytearray b => if b.length > n then .error .valueError else .ok (.str b)
  | .fixedString n, v => match v.elems with
      | none => .error .typeError
      | some vs => if vs.length > n then .error .valueError else .error .typeError

/-- What the simulator is and can do. `missing`: `get_handle_by_index` returns None. `refuses`: the
error with which the C layer rejects a value (bind.cpp:514-564: a NUL byte or a `bytearray` for
`set_signal_val_str`, an int beyond the range of a double for `set_signal_val_real`), if it does.
`primes`: registering the ReadWrite callback succeeds. `trust`: COCOTB_TRUST_INERTIAL_WRITES. -/
structure Env where
  isConst : Ref → Bool
  missing : Ref → Bool
  refuses : Ref → Datum → Option PyErr
  primes : Bool
  trust : Bool

/-- One call of `set_signal_val_*`: handle, action, value. -/
structure Call where
  ref : Ref
  act : SetAct
  val : Datum
  deriving DecidableEq, Repr

/-- State of the module. `pend` is the dictionary `_write_calls` in its iteration (insertion) order,
`cb` says that `_apply_writes_cb is not None` (handle.py:762, 784-786). -/
structure HS where
  phase : Phase
  pend : List Call
  cb : Bool
  driven : List Call

/-- State at import: `_current_gpi_trigger` is a Timer, _gpi_triggers.py:388; handle.py:762, 784-786. -/
def HS.init : HS := ⟨.other, [], false, []⟩

/-- `write_func(action.value, value)`. -/
def write (env : Env) (c : Call) (s : HS) : PyM Unit × HS :=
  match env.refuses c.ref c.val with
  | some e => (.error e, s)
  | none => (.ok (), { s with driven := s.driven ++ [c] })

/-- `_write_calls.pop(handle, None); _write_calls[handle] = …`, handle.py:810-811. -/
def dictPut (c : Call) (d : List Call) : List Call := (d.filter fun x => x.ref ≠ c.ref) ++ [c]

/-- `_schedule_write`, handle.py:771-778 and 798-823. `ReadWrite()._register` raises RuntimeError
when the callback cannot be registered (_gpi_triggers.py:200-203); the entry is in the dictionary by
then. -/
def scheduleWrite (env : Env) (c : Call) (s : HS) : PyM Unit × HS :=
  if env.trust then write env c s
  else if s.phase = .readWrite then write env c s
  else if c.act = .deposit then
    if s.cb then (.ok (), { s with pend := dictPut c s.pend })
    else if env.primes then (.ok (), { s with pend := dictPut c s.pend, cb := true })
    else (.error .runtimeError, { s with pend := dictPut c s.pend })
  else write env c s

/-- The loop of `_apply_scheduled_writes`, handle.py:789-790. -/
def writeAll (env : Env) : List Call → HS → PyM Unit × HS
  | [], s => (.ok (), s)
  | c :: cs, s => match write env c s with
    | (.ok _, s') => writeAll env cs s'
    | r => r

/-- End of `_apply_scheduled_writes`, handle.py:791-796: reached when no call raised. -/
def finishApply : PyM Unit × HS → PyM Unit × HS
  | (.ok _, s) => (.ok (), { s with pend := [], cb := false })
  | r => r

/-- `_apply_scheduled_writes`, handle.py:768-769 and 788-796. -/
def applyScheduled (env : Env) (s : HS) : PyM Unit × HS :=
  if env.trust then (.ok (), s) else finishApply (writeAll env s.pend s)

/-- `GPITrigger._react` up to the callbacks (_gpi_triggers.py:40-50) with `ReadWrite._do_callbacks`
(206-211). An exception leaves `_react`. The callbacks themselves are not run here: what they do to
handles are further operations of the history. -/
def react (env : Env) (p : Phase) (s : HS) : PyM Unit × HS :=
  match p with
  | .readWrite => applyScheduled env { s with phase := .readWrite }
  | p => (.ok (), { s with phase := p })

/-- The loop of ArrayObject._set_value, handle.py:1071-1072: `f` assigns one value to the element at
one index. The first exception stops it. -/
def setElems (f : PyVal → Int → HS → PyM Unit × HS) : List (PyVal × Int) → HS → PyM Unit × HS
  | [], s => (.ok (), s)
  | (v, i) :: t, s => match f v i s with
    | (.ok _, s') => setElems f t s'
    | r => r

/-- `_set_value`: leaves as in `leafDatum` followed by `_schedule_write`; ArrayObject._set_value,
handle.py:1062-1072, with `__getitem__` (1074-1087; the cache of children is not modelled: it returns
an object for the same handle). -/
def setValue (env : Env) : Ty → Ref → PyVal → SetAct → HS → PyM Unit × HS
  | .leaf l, ref, v, a, s => match leafDatum l v with
    | .error e => (.error e, s)
    | .ok d => scheduleWrite env ⟨ref, a, d⟩ s
  | .arr lf d rt e, ref, v, a, s => match v.elems with
    | none => (.error .typeError, s)
    | some vs =>
      if vs.length ≠ (Range.mk3 lf d rt).len then (.error .valueError, s)
      else setElems (fun v i s =>
        if env.missing (ref.child i) then (.error .indexError, s)
        else setValue env e (ref.child i) v a s) (vs.zip (Range.mk3 lf d rt).items) s

/-- What `get_signal_val_binstr`, `_long`, `_real` and `_str` return for a handle. -/
structure Reading where
  bin : List Logic
  long : Int
  real : Nat
  str : List Byte

abbrev Sim := Ref → Reading

/-- EnumObject.get and IntegerObject.get, handle.py:1535-1548 and 1655-1665. -/
def intGet (n : Nat) (s : Sgn) (rd : Reading) : PyM Int := do
  let res ← if n ≤ 32 then .ok rd.long else pyIntBase2 (rd.bin.map Logic.chr)
  if !leMax n s res then .ok (res - 2 ^ n)
  else if s = .unsigned && decide (res < 0) then .ok (res + 2 ^ n)
  else .ok res

/-- The leaf `get` methods: LogicObject 1161-1164, LogicArrayObject 1327-1335, RealObject 1455-1457,
EnumObject and IntegerObject (`intGet`), StringObject 1720-1722. -/
def leafGet : Leaf → Reading → PyM PyVal
  | .logic, rd => do
      let o ← Logic.new .logic (.str (rd.bin.map Logic.chr)); .ok (.logic o)
  | .larray _, rd => .ok (.larr rd.bin)
  | .integer n s, rd => do let v ← intGet n s rd; .ok (.int v)
  | .enum n s, rd => do let v ← intGet n s rd; .ok (.int v)
  | .real, rd => .ok (.float rd.real)
  | .string, rd => .ok (.bytes rd.str)
  | .fixedString _, rd => .ok (.bytes rd.str)

/-- The list comprehension of ArrayObject.get, handle.py:1021-1024. -/
def getElems (f : Int → PyM PyVal) : List Int → PyM (List PyVal)
  | [] => .ok []
  | i :: t => do let v ← f i; let vs ← getElems f t; .ok (v :: vs)

/-- `get`: leaves, and ArrayObject.get, handle.py:1009-1027. -/
def getValue (env : Env) (sim : Sim) : Ty → Ref → PyM PyVal
  | .leaf l, ref => leafGet l (sim ref)
  | .arr lf d rt e, ref => do
    let vs ← getElems (fun i =>
      if env.missing (ref.child i) then .error .indexError
      else getValue env sim e (ref.child i)) (Range.mk3 lf d rt).items
    .ok (.array (Range.mk3 lf d rt) vs)

/-- A value object. -/
structure Obj where
  ref : Ref
  ty : Ty

/-- What is on the right of `handle.value = …`: a plain value or one of the action objects,
handle.py:625-759. -/
inductive Arg where
  | plain (v : PyVal)
  | deposit (v : PyVal)
  | force (v : PyVal)
  | freeze
  | release
  | immediate (v : PyVal)
  | oldImmediate (v : PyVal)

/-- `obj._set_value(obj.get(), action)`, handle.py:695-696 and 725-726. -/
def setCurrent (env : Env) (sim : Sim) (o : Obj) (a : SetAct) (s : HS) : PyM Unit × HS :=
  match getValue env sim o.ty o.ref with
  | .error e => (.error e, s)
  | .ok v => setValue env o.ty o.ref v a s

/-- `_dispatch` of the actions, handle.py:642-643, 670-671, 695-696, 725-726, 750-751, 758-759, and
the default of the setter, 881-882. -/
def dispatch (env : Env) (sim : Sim) (o : Obj) (s : HS) : Arg → PyM Unit × HS
  | .plain v => setValue env o.ty o.ref v .deposit s
  | .deposit v => setValue env o.ty o.ref v .deposit s
  | .force v => setValue env o.ty o.ref v .force s
  | .freeze => setCurrent env sim o .force s
  | .release => setCurrent env sim o .release s
  | .immediate v => setValue env o.ty o.ref v .noDelay s
  | .oldImmediate v => setValue env o.ty o.ref v .oldImmediate s

/-- The setter of `ValueObjectBase.value` (and `set`), handle.py:863-882. -/
def valueSet (env : Env) (sim : Sim) (o : Obj) (arg : Arg) (s : HS) : PyM Unit × HS :=
  if s.phase = .readOnly then (.error .runtimeError, s)
  else if env.isConst o.ref then (.error .typeError, s)
  else dispatch env sim o s arg

/-- The conversion of `setimmediatevalue`'s argument, handle.py:935-938. -/
def Arg.old : Arg → Arg
  | .deposit v => .oldImmediate v
  | .plain v => .oldImmediate v
  | .oldImmediate v => .oldImmediate v
  | a => a

/-- `ValueObjectBase.setimmediatevalue`, handle.py:915-939. -/
def setImmediateValue (env : Env) (sim : Sim) (o : Obj) (arg : Arg) (s : HS) : PyM Unit × HS :=
  valueSet env sim o arg.old s

/-- One step of a history: the user writes a handle (`sim` is what the simulator would return for
reads at that moment), or a GPI trigger fires. -/
inductive Op where
  | set (o : Obj) (arg : Arg) (sim : Sim)
  | setImmediate (o : Obj) (arg : Arg) (sim : Sim)
  | react (p : Phase)

/-- Effect of one step. -/
def step (env : Env) : Op → HS → PyM Unit × HS
  | .set o arg sim, s => valueSet env sim o arg s
  | .setImmediate o arg sim, s => setImmediateValue env sim o arg s
  | .react p, s => react env p s

/-- A whole history. An exception is seen by the caller of that step only; the history goes on. -/
def run (env : Env) : List Op → HS → HS
  | [], s => s
  | op :: ops, s => run env ops (step env op s).2

end Verif.Hdl
