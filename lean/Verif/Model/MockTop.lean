import Verif.Py.Int
/-!
# `cocotb.top` while pytest collects tests (src/cocotb_tools/_pytest/_handle.py, _controller.py:141)

Expressions of a test module over the stand-in for the handle of the toplevel, evaluated by the rules of Python: an
operation looks for a special method in the class, `__getattr__` only serves attributes that are not there. Values are
the stand-in, whole numbers (with `bool`) and texts; other attributes and methods of numbers and texts are left out.
-/
namespace Verif.MockTop

inductive Val where
  /-- The one object that `MockSimHandle` methods return. -/
  | mock
  | int (n : Int)
  | str (s : PyStr)
  deriving DecidableEq, Repr

/-- Comparisons. -/
inductive Cmp where
  | eq | ne | lt | le | gt | ge
  deriving DecidableEq, Repr

inductive Expr where
  | top
  | int (n : Int)
  | str (s : PyStr)
  | attr (e : Expr) (name : PyStr)
  | item (e k : Expr)
  | call (e a : Expr)
  | cmp (o : Cmp) (a b : Expr)
  | not (e : Expr)
  | ite (c a b : Expr)
  | toInt (e : Expr)
  | len (e : Expr)
  | add (a b : Expr)
  /-- `range(e)`, and other uses as an index. -/
  | range (e : Expr)
  /-- `list(e)`, `for x in e`, `[… for x in e]`. -/
  | list (e : Expr)
  /-- `e` as a key of a dictionary. -/
  | key (e : Expr)
  /-- `a in b`. -/
  | isIn (a b : Expr)
  deriving Repr

/-- How an evaluation ends. -/
inductive Res where
  | ok (v : Val)
  | raises
  /-- It does not end. -/
  | forever
  deriving DecidableEq, Repr

def Res.bind (r : Res) (f : Val → Res) : Res :=
  match r with
  | .ok v => f v
  | .raises => .raises
  | .forever => .forever

def ofBool (b : Bool) : Val := .int (if b then 1 else 0)

/-- The comparison methods of `MockSimHandle`. `__nq__` is no name of a method Python knows: `!=` is `not ==`.
_handle.py:34-56. -/
def mockCmp : Cmp → Bool
  | .eq => false
  | .ne => true
  | .lt => false
  | .le => false
  | .gt => false
  | .ge => false

/-- The comparison that is asked of the right operand if the left one does not know the answer. -/
def Cmp.swap : Cmp → Cmp
  | .eq => .eq
  | .ne => .ne
  | .lt => .gt
  | .le => .ge
  | .gt => .lt
  | .ge => .le

def intCmp (o : Cmp) (a b : Int) : Bool :=
  match o with
  | .eq => decide (a = b)
  | .ne => decide (a ≠ b)
  | .lt => decide (a < b)
  | .le => decide (a ≤ b)
  | .gt => decide (a > b)
  | .ge => decide (a ≥ b)

/-- `a o b`; the order of texts is left out (raises). -/
def cmpVals (o : Cmp) (a b : Val) : Res :=
  match a, b with
  | .mock, _ => .ok (ofBool (mockCmp o))
  | _, .mock => .ok (ofBool (mockCmp o.swap))
  | .int m, .int n => .ok (ofBool (intCmp o m n))
  | .str s, .str t => match o with
    | .eq => .ok (ofBool (decide (s = t)))
    | .ne => .ok (ofBool (decide (s ≠ t)))
    | _ => .raises
  | _, _ => match o with
    | .eq => .ok (ofBool false)
    | .ne => .ok (ofBool true)
    | _ => .raises

/-- `bool(v)`: through `__len__` for the stand-in, _handle.py:58-60. -/
def truth : Val → Bool
  | .mock => false
  | .int n => decide (n ≠ 0)
  | .str s => decide (s ≠ [])

/-- `v.name`, _handle.py:22-24. -/
def getAttr : Val → Res
  | .mock => .ok .mock
  | _ => .raises

/-- `v[k]`, _handle.py:18-20; items of texts are left out (raises). -/
def getItem : Val → Res
  | .mock => .ok .mock
  | _ => .raises

/-- `v(...)`, _handle.py:26-28. -/
def callVal : Val → Res
  | .mock => .ok .mock
  | _ => .raises

/-- `int(v)`, _handle.py:30-32; numerals in texts are left out (raises). -/
def intOf : Val → Res
  | .mock => .ok (.int 0)
  | .int n => .ok (.int n)
  | .str _ => .raises

/-- `len(v)`, _handle.py:58-60. -/
def lenOf : Val → Res
  | .mock => .ok (.int 0)
  | .int _ => .raises
  | .str s => .ok (.int s.length)

/-- `a + b`: `MockSimHandle` has no such method. -/
def addVals : Val → Val → Res
  | .int m, .int n => .ok (.int (m + n))
  | .str s, .str t => .ok (.str (s ++ t))
  | _, _ => .raises

/-- `range(v)`: `MockSimHandle` has no `__index__`. The value is not looked at. -/
def rangeOf : Val → Res
  | .int n => .ok (.int n)
  | _ => .raises

/-- Iteration: `MockSimHandle` has no `__iter__`, so that Python asks `__getitem__` for 0, 1, 2, … until an IndexError,
which never comes. The value is not looked at. -/
def listOf : Val → Res
  | .mock => .forever
  | .int _ => .raises
  | .str s => .ok (.str s)

/-- A key of a dictionary: a class with `__eq__` and without `__hash__` has no hash. -/
def keyOf : Val → Res
  | .mock => .raises
  | v => .ok v

/-- `a in b`: without `__contains__` Python looks at all items, which are the stand-in itself. Texts in texts are left out
(raises). -/
def contains : Val → Val → Res
  | .mock, .mock => .ok (ofBool true)
  | _, .mock => .forever
  | _, _ => .raises

/-- The value of an expression. -/
def eval : Expr → Res
  | .top => .ok .mock
  | .int n => .ok (.int n)
  | .str s => .ok (.str s)
  | .attr e _ => (eval e).bind getAttr
  | .item e k => (eval e).bind fun v => (eval k).bind fun _ => getItem v
  | .call e a => (eval e).bind fun v => (eval a).bind fun _ => callVal v
  | .cmp o a b => (eval a).bind fun v => (eval b).bind fun w => cmpVals o v w
  | .not e => (eval e).bind fun v => .ok (ofBool (!truth v))
  | .ite c a b => (eval c).bind fun v => if truth v then eval a else eval b
  | .toInt e => (eval e).bind intOf
  | .len e => (eval e).bind lenOf
  | .add a b => (eval a).bind fun v => (eval b).bind fun w => addVals v w
  | .range e => (eval e).bind rangeOf
  | .list e => (eval e).bind listOf
  | .key e => (eval e).bind keyOf
  | .isIn a b => (eval a).bind fun v => (eval b).bind fun w => contains v w

end Verif.MockTop
