import Verif.Py.Format
import Verif.Model.Logic
import Verif.Model.Array
/-!
# `cocotb.types.LogicArray` (src/cocotb/types/_logic_array.py)

Methods that read the value may fill in one of the three cached representations, so they return the
object after the call as well; the object is also returned when the call raises.
`COCOTB_RESOLVE_X` is the parameter `rx`; `rng` is the stream of future random bits.
-/
namespace Verif

/-- A `LogicArray` object, _logic_array.py:233-239 (`__slots__`). -/
structure LA where
  arr : Option (List Logic)
  int : Option Int
  str : Option PyStr
  range : Range
  warn : Bool
  deriving DecidableEq, Repr

/-- The constructor's `value` argument. Simplification: an iterable is the list of its items. -/
inductive LAVal where
  | str (s : PyStr)
  | int (i : Int)
  | obj (a : LA)
  | iter (l : List Logic.Lit)

/-- Byte orders, _logic_array.py:32. -/
inductive ByteOrder where
  | big | little
  deriving DecidableEq, Repr

abbrev Byte := Fin 256

/-- Python `int.from_bytes(b, "big", signed=False)`. -/
def bytesToNatBE (b : List Byte) : Nat := b.foldl (fun acc x => 256 * acc + x.val) 0

/-- Python `int.from_bytes`. -/
def intFromBytes (b : List Byte) : ByteOrder → Nat
  | .big => bytesToNatBE b
  | .little => bytesToNatBE b.reverse

/-- `k` base-256 digits of `n`, least significant first. -/
def natToBytesLE : Nat → Nat → List Byte
  | 0, _ => []
  | k + 1, n => ⟨n % 256, Nat.mod_lt _ (by decide)⟩ :: natToBytesLE k (n / 256)

/-- Python `int.to_bytes(length, byteorder)` (unsigned): `OverflowError` when it does not fit or is
negative. -/
def intToBytes (n : Int) (k : Nat) (o : ByteOrder) : PyM (List Byte) :=
  if n < 0 ∨ n ≥ (256 : Int) ^ k then .error .overflowError
  else match o with
    | .big => .ok (natToBytesLE k n.toNat).reverse
    | .little => .ok (natToBytesLE k n.toNat)

namespace LA

/-- `len(self)`, _abstract_array.py:66-67. -/
def len (a : LA) : Nat := a.range.len

/-- `value.replace("_", "").upper()`, _logic_array.py:259-260. Simplification: ASCII upper-casing;
no other character upper-cases to a string over `UX01ZWLH-`, so the set of accepted strings and
their values are the same. -/
def normStr (s : PyStr) : PyStr := (s.filter fun c => c ≠ '_').map Char.toUpper

/-- `_str_literals`, _logic_array.py:29. -/
def strLiterals : List Char := ['U', 'X', '0', '1', 'Z', 'W', 'L', 'H', '-']

/-- `[Logic(v) for v in value]`. -/
def logics : List Logic.Lit → PyM (List Logic)
  | [] => .ok []
  | x :: xs => match Logic.new .logic x with
    | .error e => .error e
    | .ok o => match logics xs with
      | .error e => .error e
      | .ok l => .ok (o.v :: l)

/-- Normalisation of the `range` argument shared by the constructors, _logic_array.py:251-256:
an integer `n` means `n-1 downto 0`. -/
def normRange : RangeArg → PyM (Option Range)
  | .none => .ok none
  | .int n => .ok (some (.mk3 (n - 1) .downto 0))
  | .range r => .ok (some r)
  | .other => .error .typeError

/-- The default range `len-1 downto 0`. -/
def defaultRange (n : Nat) : Range := .mk3 ((n : Int) - 1) .downto 0

/-- `LogicArray.__init__`, _logic_array.py:241-317. -/
def new (value : LAVal) (range : RangeArg) : PyM LA :=
  match normRange range with
  | .error e => .error e
  | .ok range =>
    match value with
    | .str s =>
      let s := normStr s
      if s.all (fun c => decide (c ∈ strLiterals)) then
        match range with
        | some r => if s.length ≠ r.len then .error .valueError else .ok ⟨none, none, some s, r, false⟩
        | none => .ok ⟨none, none, some s, defaultRange s.length, false⟩
      else .error .valueError
    | .int v =>
      match range with
      | none => .error .typeError
      | some r =>
        if r.len = 0 then .error .valueError
        else if v < 0 then
          if v < -((2 : Int) ^ (r.len - 1)) then .error .valueError
          else .ok ⟨none, some (v + 2 ^ r.len), none, r, false⟩
        else if v ≥ 2 ^ r.len then .error .valueError
        else .ok ⟨none, some v, none, r, false⟩
    | .obj o =>
      match range with
      | none => .ok ⟨o.arr, o.int, o.str, o.range, false⟩
      | some r =>
        if r.len ≠ o.len then .error .valueError else .ok ⟨o.arr, o.int, o.str, r, false⟩
    | .iter l =>
      match logics l with
      | .error e => .error e
      | .ok l =>
        match range with
        | some r => if l.length ≠ r.len then .error .valueError else .ok ⟨some l, none, none, r, false⟩
        | none => .ok ⟨some l, none, none, defaultRange l.length, false⟩

/-- `LogicArray._get_str`, _logic_array.py:325-333 (`TypeError` from iterating `None` if no
representation is present). -/
def getStr (a : LA) : PyM PyStr × LA :=
  match a.str with
  | some s => (.ok s, a)
  | none => match a.int with
    | some n => let s := pyFormatBin a.len n; (.ok s, { a with str := some s })
    | none => match a.arr with
      | some l => let s := l.map Logic.chr; (.ok s, { a with str := some s })
      | none => (.error .typeError, a)

/-- `LogicArray._get_array`, _logic_array.py:319-323. -/
def getArray (a : LA) : PyM (List Logic) × LA :=
  match a.arr with
  | some l => (.ok l, a)
  | none => match a.getStr with
    | (.error e, a) => (.error e, a)
    | (.ok s, a) => match logics (s.map fun c => .str [c]) with
      | .error e => (.error e, a)
      | .ok l => (.ok l, { a with arr := some l })

/-- `_resolve_lh_table`, _logic_array.py:28. -/
def lhTable : Char → Char
  | 'L' => '0'
  | 'H' => '1'
  | c => c

abbrev Rng := Nat → Bool

/-- `LogicArray._get_int`, _logic_array.py:335-354. -/
def getInt (rx : Option Resolver) (rng : Rng) (a : LA) : PyM Int × LA × Rng :=
  match a.int with
  | some n => (.ok n, a, rng)
  | none => match a.getStr with
    | (.error e, a) => (.error e, a, rng)
    | (.ok s, a) =>
      let s := s.map lhTable
      match pyIntBase2 s with
      | .ok n => (.ok n, { a with int := some n }, rng)
      | .error _ => match rx with
        | none => (.error .valueError, a, rng)
        | some r =>
          let p := r.apply s rng
          (pyIntBase2 p.1, a, p.2)

/-- Range argument of `from_unsigned` / `from_signed`, _logic_array.py:392-397, 475-480 (the
argument is required there). -/
def reqRange : RangeArg → PyM Range
  | .int n => .ok (.mk3 (n - 1) .downto 0)
  | .range r => .ok r
  | _ => .error .typeError

/-- `LogicArray.from_unsigned`, _logic_array.py:357-432. `overflow` is the `on_overflow` string. -/
def fromUnsigned (value : Int) (range : RangeArg) (overflow : String) : PyM LA :=
  match reqRange range with
  | .error e => .error e
  | .ok r =>
    if value < 0 then .error .valueError
    else if r.len = 0 then .error .valueError
    else if overflow = "wrap" then .ok ⟨none, some (value % 2 ^ r.len), none, r, false⟩
    else if overflow = "error" then
      if value ≥ 2 ^ r.len then .error .valueError else .ok ⟨none, some value, none, r, false⟩
    else .error .valueError

/-- `LogicArray.from_signed`, _logic_array.py:435-513. Python `%` with a positive modulus is
`Int.emod`. -/
def fromSigned (value : Int) (range : RangeArg) (overflow : String) : PyM LA :=
  match reqRange range with
  | .error e => .error e
  | .ok r =>
    if r.len = 0 then .error .valueError
    else if overflow = "wrap" then .ok ⟨none, some (value % 2 ^ r.len), none, r, false⟩
    else if overflow = "error" then
      let limit : Int := 2 ^ (r.len - 1)
      if value < -limit ∨ limit ≤ value then .error .valueError
      else .ok ⟨none, some (value % (2 * limit)), none, r, false⟩
    else .error .valueError

/-- `LogicArray.from_bytes`, _logic_array.py:516-549. -/
def fromBytes (b : List Byte) (range : Option RangeArg) (o : ByteOrder) : PyM LA :=
  match range with
  | none => new (.int (intFromBytes b o)) (.range (.mk3 ((b.length : Int) * 8 - 1) .downto 0))
  | some ra => match reqRange ra with
    | .error e => .error e
    | .ok r =>
      if b.length * 8 ≠ r.len then .error .valueError
      else new (.int (intFromBytes b o)) (.range r)

/-- `LogicArray._from_handle`, _logic_array.py:552-562. -/
def fromHandle (s : PyStr) (warn : Bool) : LA := ⟨none, none, some s, defaultRange s.length, warn⟩

/-- Assignment to `range`, _logic_array.py:570-578. -/
def setRange (a : LA) (r : Range) : PyM LA :=
  if r.len ≠ a.len then .error .valueError else .ok { a with range := r }

/-- `LogicArray.to_unsigned` (also `int(a)`), _logic_array.py:780-792, 923-927. -/
def toUnsigned (rx : Option Resolver) (rng : Rng) (a : LA) : PyM Int × LA × Rng :=
  if a.len = 0 then (.error .valueError, a, rng) else a.getInt rx rng

/-- `LogicArray.to_signed`, _logic_array.py:794-810. -/
def toSigned (rx : Option Resolver) (rng : Rng) (a : LA) : PyM Int × LA × Rng :=
  if a.len = 0 then (.error .valueError, a, rng)
  else match a.getInt rx rng with
    | (.error e, a', rng) => (.error e, a', rng)
    | (.ok v, a', rng) =>
      let limit : Int := 2 ^ (a.len - 1)
      (.ok (if v ≥ limit then v - 2 * limit else v), a', rng)

/-- `LogicArray.to_bytes`, _logic_array.py:812-829. Simplification: `ceil(len / 8)` is computed
exactly (Python goes through a float, exact for every length below 2^53). -/
def toBytes (rx : Option Resolver) (rng : Rng) (a : LA) (o : ByteOrder) :
    PyM (List Byte) × LA × Rng :=
  match a.toUnsigned rx rng with
  | (.error e, a', rng) => (.error e, a', rng)
  | (.ok v, a', rng) => (intToBytes v ((a.len + 7) / 8) o, a', rng)

/-- `LogicArray._translate_index`, _logic_array.py:911-915. -/
def translate (a : LA) (i : Int) : PyM Int :=
  match a.range.index i none none with
  | .ok k => .ok k
  | .error .valueError => .error .indexError
  | .error e => .error e

/-- The bounds part of slice access, _logic_array.py:858-867 and 891-900. -/
def sliceBounds (a : LA) (s : PySlice) : PyM (Int × Int × Int × Int) :=
  let start := s.start.getD a.range.left
  let stop := s.stop.getD a.range.right
  if s.step.isSome then .error .indexError
  else do
    let si ← a.translate start
    let sj ← a.translate stop
    if si > sj then .error .indexError else .ok (start, stop, si, sj)

/-- The warning text of `a[i]`, _logic_array.py:840-845. -/
def warnItem (a : LA) (i : Int) : PyM Unit :=
  if a.warn then
    match a.range.getItem i with
    | .ok _ => .ok ()
    | .error e => .error e
  else .ok ()

/-- The warning text of `a[i:j]`, _logic_array.py:849-857. -/
def warnSlice (a : LA) (start stop : Option Int) : PyM Unit :=
  if a.warn then do
    let _ ← a.range.getItem (start.getD 0)
    let _ ← a.range.getItem (stop.getD ((a.len : Int) - 1))
    .ok ()
  else .ok ()

/-- `a[i]`, _logic_array.py:837-847. -/
def getItem (a : LA) (i : Int) : PyM Logic × LA :=
  match a.getArray with
  | (.error e, a) => (.error e, a)
  | (.ok l, a) => (do
      a.warnItem i
      let k ← a.translate i
      pyListGet l k, a)

/-- `a[slice]`, _logic_array.py:848-869. -/
def getSlice (a : LA) (s : PySlice) : PyM LA × LA :=
  match a.getArray with
  | (.error e, a) => (.error e, a)
  | (.ok l, a) => (do
      a.warnSlice s.start s.stop
      let (start, stop, si, sj) ← a.sliceBounds s
      let d ← a.range.direction
      let value := pyListGetSlice l si (sj + 1)
      new (.iter (value.map fun v => .obj ⟨.logic, v⟩)) (.range (.mk3 start d stop)), a)

/-- `a[i] = v`, _logic_array.py:880-889: the other representations are dropped first. -/
def setItem (a : LA) (i : Int) (v : Logic.Lit) : PyM Unit × LA :=
  match a.getArray with
  | (.error e, a) => (.error e, a)
  | (.ok l, a) =>
    let a := { a with str := none, int := none }
    match (do
        let k ← a.translate i
        let o ← Logic.new .logic v
        pyListSet l k o.v) with
    | .error e => (.error e, a)
    | .ok l' => (.ok (), { a with arr := some l' })

/-- Right-hand sides of a slice assignment; `self` is the array being assigned to. -/
inductive SliceVal where
  | val (v : LAVal)
  | self

/-- The value passed to the constructor in `a[slice] = v`, _logic_array.py:901-902. -/
def SliceVal.toVal (a : LA) : SliceVal → LAVal
  | .val v => v
  | .self => .obj a

/-- `a[slice] = v`, _logic_array.py:880-909. -/
def setSlice (a : LA) (s : PySlice) (v : SliceVal) : PyM Unit × LA :=
  match a.getArray with
  | (.error e, a) => (.error e, a)
  | (.ok l, a) =>
    let a := { a with str := none, int := none }
    match (do
        let (_, _, si, sj) ← a.sliceBounds s
        let tmp ← new (v.toVal a) (.int (sj - si + 1))
        let vs ← tmp.getArray.1
        .ok (pyListSetSlice l si (sj + 1) vs)) with
    | .error e => (.error e, a)
    | .ok l' => (.ok (), { a with arr := some l' })

/-- `list(a)`, _logic_array.py:580-581. -/
def iter (a : LA) : PyM (List Logic) × LA := a.getArray

/-- `list(reversed(a))`, _logic_array.py:583-584. -/
def reversed (a : LA) : PyM (List Logic) × LA :=
  match a.getArray with
  | (.error e, a) => (.error e, a)
  | (.ok l, a) => (.ok l.reverse, a)

/-- `item in a`, _logic_array.py:586-587, through `Logic.__eq__`. -/
def contains (a : LA) (item : Logic.Lit) : PyM Bool × LA :=
  match a.getArray with
  | (.error e, a) => (.error e, a)
  | (.ok l, a) => (.ok (l.any fun x => Logic.eq ⟨.logic, x⟩ item == some true), a)

/-- `a.is_resolvable`, _logic_array.py:677-679. -/
def isResolvable (a : LA) : PyM Bool × LA :=
  match a.getArray with
  | (.error e, a) => (.error e, a)
  | (.ok l, a) => (.ok (l.all Logic.isResolvable), a)

/-- Elementwise operator on two arrays, _logic_array.py:929-960 (`zip` of the two iterators; the
result gets the default range). Returns both operands after the call. -/
def bitop (f : Logic → Logic → Logic) (a b : LA) : PyM LA × LA × LA :=
  if a.len ≠ b.len then (.error .valueError, a, b)
  else match a.getArray with
    | (.error e, a) => (.error e, a, b)
    | (.ok l, a) => match b.getArray with
      | (.error e, b) => (.error e, a, b)
      | (.ok m, b) =>
        match (l.zip m).mapM fun p => Logic.binop f ⟨.logic, p.1⟩ ⟨.logic, p.2⟩ with
        | .error e => (.error e, a, b)
        | .ok os => (new (.iter (os.map .obj)) .none, a, b)

/-- `~a`, _logic_array.py:962-963. -/
def invert (a : LA) : PyM LA × LA :=
  match a.getArray with
  | (.error e, a) => (.error e, a)
  | (.ok l, a) =>
    match l.mapM fun v => Logic.inv ⟨.logic, v⟩ with
    | .error e => (.error e, a)
    | .ok os => (new (.iter (os.map .obj)) .none, a)

/-- `bool(a)`, _logic_array.py:965-977: with a resolver configured, any element that is `1`/`H`. -/
def toBool (rx : Option Resolver) (rng : Rng) (a : LA) : PyM Bool × LA × Rng :=
  if a.len = 0 then (.ok false, a, rng)
  else match rx with
    | none => match a.toUnsigned none rng with
      | (.error e, a, rng) => (.error e, a, rng)
      | (.ok v, a, rng) => (.ok (decide (v ≠ 0)), a, rng)
    | some r => match a.getArray with
      | (.error e, a) => (.error e, a, rng)
      | (.ok l, a) => (.ok (l.any fun v => Logic.toBool (some r) v == .ok true), a, rng)

/-- `a.resolve(r)`, _logic_array.py:979-1009. -/
def resolve (a : LA) (r : Resolver) (rng : Rng) : PyM LA × LA × Rng :=
  match a.getStr with
  | (.error e, a) => (.error e, a, rng)
  | (.ok s, a) => let p := r.apply s rng; (new (.str p.1) (.range a.range), a, p.2)

/-- `copy.deepcopy(a)`, _logic_array.py:1014-1021. -/
def deepcopy (a : LA) : PyM LA :=
  match a.range.copy with
  | .ok r => .ok { a with range := r }
  | .error e => .error e

/-- `a == n` for an integer, _logic_array.py:593-604. -/
def eqInt (rx : Option Resolver) (rng : Rng) (a : LA) (n : Int) : PyM Bool × LA × Rng :=
  if a.len = 0 then (.ok false, a, rng)
  else
    match (if n < 0 then a.toSigned rx rng else a.toUnsigned rx rng) with
    | (.ok v, a, rng) => (.ok (decide (v = n)), a, rng)
    | (.error .valueError, a, rng) => (.ok false, a, rng)
    | (.error e, a, rng) => (.error e, a, rng)

/-- `a == s` for a string, _logic_array.py:605-606 (ASCII upper-casing, see `normStr`). -/
def eqStr (a : LA) (s : PyStr) : PyM Bool × LA :=
  match a.getStr with
  | (.error e, a) => (.error e, a)
  | (.ok t, a) => (.ok (decide (t = s.map Char.toUpper)), a)

/-- `a == b` for two arrays, _logic_array.py:607-636. Elements are `Logic`, compared by value. -/
def eqObj (a b : LA) : PyM Bool × LA × LA :=
  if a.len ≠ b.len then (.ok false, a, b)
  else match a.str, b.str, a.arr, b.arr, a.int, b.int with
    | some s, some t, _, _, _, _ => (.ok (decide (s = t)), a, b)
    | _, _, some l, some m, _, _ => (.ok (decide (l = m)), a, b)
    | _, _, _, _, some n, some k => (.ok (decide (n = k)), a, b)
    | some s, _, _, _, _, _ =>
      match b.getStr with
      | (.ok t, b) => (.ok (decide (s = t)), a, b)
      | (.error e, b) => (.error e, a, b)
    | _, some t, _, _, _, _ =>
      match a.getStr with
      | (.ok s, a) => (.ok (decide (s = t)), a, b)
      | (.error e, a) => (.error e, a, b)
    | _, _, some l, _, _, _ =>
      match b.getArray with
      | (.ok m, b) => (.ok (decide (l = m)), a, b)
      | (.error e, b) => (.error e, a, b)
    | _, _, _, m, _, _ =>
      match a.getArray with
      | (.ok l, a) => (.ok (decide (some l = m)), a, b)
      | (.error e, a) => (.error e, a, b)

/-- `a == [..]` for a list or tuple, _logic_array.py:637-644; `NotImplemented` (after a `TypeError`)
makes the comparison `False`. -/
def eqList (a : LA) (l : List Logic.Lit) : PyM Bool × LA :=
  match new (.iter l) .none with
  | .ok b => let r := a.eqObj b; (r.1, r.2.1)
  | .error .valueError => (.ok false, a)
  | .error .typeError => (.ok false, a)
  | .error e => (.error e, a)

/-- The leading `#` option, _logic_array.py:1027-1032. -/
def fmtAlt : PyStr → Bool × PyStr
  | '#' :: t => (true, t)
  | s => (false, s)

/-- The grouping option, _logic_array.py:1034-1036. -/
def fmtSep : PyStr → Option Char × PyStr
  | '_' :: t => (some '_', t)
  | ',' :: t => (some ',', t)
  | s => (none, s)

/-- `format(a, spec)`, _logic_array.py:1023-1075. `int(self)` is evaluated before formatting. -/
def format (rx : Option Resolver) (rng : Rng) (a : LA) (spec : PyStr) : PyM PyStr × LA × Rng :=
  if spec = [] then
    match a.getStr with
    | (r, a) => (r, a, rng)
  else
    let (alt, spec) := fmtAlt spec
    let baseLen := if alt then 2 else 0
    let (sep, spec) := fmtSep spec
    let n := a.len
    let num (alt : Bool) (pre : PyStr) (w : Nat) (ty : FmtTy) : PyM PyStr × LA × Rng :=
      match a.toUnsigned rx rng with
      | (.error e, a, rng) => (.error e, a, rng)
      | (.ok v, a, rng) => match pyFormatInt alt w sep ty v with
        | .ok s => (.ok (pre ++ s), a, rng)
        | .error e => (.error e, a, rng)
    let hexLen := (n + 3) / 4
    let hexW := hexLen + (if sep.isSome then (hexLen - 1) / 4 else 0) + baseLen
    if spec = ['b'] then num alt [] (n + (if sep.isSome then (n - 1) / 4 else 0) + baseLen) .b
    else if spec = ['x'] then num alt [] hexW .x
    else if spec = ['X'] then num alt [] hexW .X
    else if spec = ['d'] then
      let decLen := (n + 9) / 10
      num false (if alt then "0d".toList else [])
        (decLen + (if sep.isSome then (decLen - 1) / 3 else 0) + baseLen) .d
    else if spec = ['o'] then
      let octLen := (n + 2) / 3 + baseLen
      num alt [] (octLen + (if sep.isSome then (octLen - 1) / 4 else 0)) .o
    else (.error .valueError, a, rng)

end LA
end Verif
