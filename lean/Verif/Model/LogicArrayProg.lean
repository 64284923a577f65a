import Verif.Model.LogicArray
/-!
# Client programs over `LogicArray` objects

A store of objects and the method calls a client can make, in any order and number. The functions
called are the ones of `Verif.Model.LogicArray`; nothing here has a counterpart in /repo except that
each command is one method call of src/cocotb/types/_logic_array.py.
-/
namespace Verif.LA

/-- Reading methods on one object. -/
inductive Read where
  | str | unsigned | signed | bytes (o : ByteOrder) | bool | resolvable | list | revlist | len | range
  | contains (x : Logic.Lit) | item (i : Int) | eqInt (n : Int) | eqStr (s : PyStr) | eqList (l : List Logic.Lit)
  | format (spec : PyStr)

/-- What a client sees. -/
inductive Out where
  | str (r : PyM PyStr) | int (r : PyM Int) | bytes (r : PyM (List Byte)) | bool (r : PyM Bool)
  | list (r : PyM (List Logic)) | nat (n : Nat) | range (r : Range) | logic (r : PyM Logic)
  | unit (r : PyM Unit) | none

def read (rx : Option Resolver) (rng : Rng) (a : LA) : Read → Out × LA × Rng
  | .str => let p := a.getStr; (.str p.1, p.2, rng)
  | .unsigned => let p := a.toUnsigned rx rng; (.int p.1, p.2.1, p.2.2)
  | .signed => let p := a.toSigned rx rng; (.int p.1, p.2.1, p.2.2)
  | .bytes o => let p := a.toBytes rx rng o; (.bytes p.1, p.2.1, p.2.2)
  | .bool => let p := a.toBool rx rng; (.bool p.1, p.2.1, p.2.2)
  | .resolvable => let p := a.isResolvable; (.bool p.1, p.2, rng)
  | .list => let p := a.iter; (.list p.1, p.2, rng)
  | .revlist => let p := a.reversed; (.list p.1, p.2, rng)
  | .len => (.nat a.len, a, rng)
  | .range => (.range a.range, a, rng)
  | .contains x => let p := a.contains x; (.bool p.1, p.2, rng)
  | .item i => let p := a.getItem i; (.logic p.1, p.2, rng)
  | .eqInt n => let p := a.eqInt rx rng n; (.bool p.1, p.2.1, p.2.2)
  | .eqStr s => let p := a.eqStr s; (.bool p.1, p.2, rng)
  | .eqList l => let p := a.eqList l; (.bool p.1, p.2, rng)
  | .format s => let p := a.format rx rng s; (.str p.1, p.2.1, p.2.2)

/-- Methods returning a new object made from one operand. -/
inductive Make where
  | slice (s : PySlice) | invert | resolve (r : Resolver) | deepcopy | new (r : RangeArg)

def make (rng : Rng) (a : LA) : Make → PyM LA × LA × Rng
  | .slice s => let p := a.getSlice s; (p.1, p.2, rng)
  | .invert => let p := a.invert; (p.1, p.2, rng)
  | .resolve r => a.resolve r rng
  | .deepcopy => (a.deepcopy, a, rng)
  | .new r => (LA.new (.obj a) r, a, rng)

/-- The right-hand side of a slice assignment: a literal value or another object of the store. -/
inductive Src where
  | str (s : PyStr) | int (n : Int) | iter (l : List Logic.Lit) | obj (j : Nat)

def Src.val : Src → Option LAVal
  | .str s => some (.str s)
  | .int n => some (.int n)
  | .iter l => some (.iter l)
  | .obj _ => .none

/-- Client commands; `k`, `j` are positions in the store. -/
inductive Cmd where
  | new (v : Src) (r : RangeArg)
  | fromUnsigned (n : Int) (r : RangeArg) (ovf : String)
  | fromSigned (n : Int) (r : RangeArg) (ovf : String)
  | fromBytes (b : List Byte) (r : Option RangeArg) (o : ByteOrder)
  | read (k : Nat) (r : Read)
  | make (k : Nat) (m : Make)
  | setItem (k : Nat) (i : Int) (v : Logic.Lit)
  | setSlice (k : Nat) (s : PySlice) (v : Src)
  | setRange (k : Nat) (r : Range)
  | bitop (f : Logic → Logic → Logic) (k j : Nat)
  | eqObj (k j : Nat)

structure St where
  objs : List LA
  rng : Rng

def addObj (s : St) : PyM LA → Out × St
  | .ok a => (.unit (.ok ()), { s with objs := s.objs ++ [a] })
  | .error e => (.unit (.error e), s)

/-- One command. A command naming a missing object does nothing. -/
def exec (rx : Option Resolver) (s : St) : Cmd → Out × St
  | .new (.obj k) r => match s.objs[k]? with
    | some a => addObj s (LA.new (.obj a) r)
    | .none => (.none, s)
  | .new v r => match v.val with
    | some v => addObj s (LA.new v r)
    | .none => (.none, s)
  | .fromUnsigned n r o => addObj s (LA.fromUnsigned n r o)
  | .fromSigned n r o => addObj s (LA.fromSigned n r o)
  | .fromBytes b r o => addObj s (LA.fromBytes b r o)
  | .read k r => match s.objs[k]? with
    | some a => let p := a.read rx s.rng r; (p.1, ⟨s.objs.set k p.2.1, p.2.2⟩)
    | .none => (.none, s)
  | .make k m => match s.objs[k]? with
    | some a => let p := a.make s.rng m; addObj ⟨s.objs.set k p.2.1, p.2.2⟩ p.1
    | .none => (.none, s)
  | .setItem k i v => match s.objs[k]? with
    | some a => let p := a.setItem i v; (.unit p.1, ⟨s.objs.set k p.2, s.rng⟩)
    | .none => (.none, s)
  | .setSlice k sl (.obj j) => match s.objs[k]?, s.objs[j]? with
    | some a, some b =>
      let p := a.setSlice sl (if k = j then .self else .val (.obj b))
      (.unit p.1, ⟨s.objs.set k p.2, s.rng⟩)
    | _, _ => (.none, s)
  | .setSlice k sl v => match s.objs[k]?, v.val with
    | some a, some v => let p := a.setSlice sl (.val v); (.unit p.1, ⟨s.objs.set k p.2, s.rng⟩)
    | _, _ => (.none, s)
  | .setRange k r => match s.objs[k]? with
    | some a => match a.setRange r with
      | .ok a' => (.unit (.ok ()), ⟨s.objs.set k a', s.rng⟩)
      | .error e => (.unit (.error e), s)
    | .none => (.none, s)
  | .bitop f k j => match s.objs[k]?, s.objs[j]? with
    | some a, some b =>
      let p := bitop f a b
      addObj ⟨(s.objs.set k p.2.1).set j p.2.2, s.rng⟩ p.1
    | _, _ => (.none, s)
  | .eqObj k j => match s.objs[k]?, s.objs[j]? with
    | some a, some b =>
      let p := eqObj a b
      (.bool p.1, ⟨(s.objs.set k p.2.1).set j p.2.2, s.rng⟩)
    | _, _ => (.none, s)

/-- The outputs of a program. -/
def trace (rx : Option Resolver) : St → List Cmd → List Out
  | _, [] => []
  | s, c :: cs => let p := exec rx s c; p.1 :: trace rx p.2 cs

end Verif.LA
