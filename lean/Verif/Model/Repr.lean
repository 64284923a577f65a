import Verif.Model.LogicArray
import Verif.Py.Dec
/-!
# `repr` of the types in `cocotb.types` (src/cocotb/types/_range.py, _logic.py, _logic_array.py, _array.py)

Subclasses of these types are left out; the text starts with the name of the class itself.
-/
namespace Verif.ReprM
open Verif

/-- A Python value: an int, a str, a Logic or Bit, a Range, a LogicArray, a list or an Array. -/
inductive Val where
  | int (i : Int)
  | str (s : PyStr)
  | logic (o : Logic.Obj)
  | range (r : Range)
  | la (a : LA)
  | list (vs : List Val)
  | arr (vs : List Val) (r : Range)

/-- `repr(s)` for a string of printable ASCII characters without quotes and backslashes (Python's library). -/
def quote (s : PyStr) : PyStr := '\'' :: s ++ ['\'']

/-- The two direction strings, _range.py:202-207. -/
def dirStr : Dir → PyStr
  | .to => ['t', 'o']
  | .downto => ['d', 'o', 'w', 'n', 't', 'o']

/-- `Range.__repr__`, _range.py:165-166. -/
def reprRange (r : Range) : PyM PyStr := do
  let d ← r.direction
  .ok ("Range(".toList ++ intStr r.left ++ ", ".toList ++ quote (dirStr d) ++ ", ".toList ++ intStr r.right ++ [')'])

/-- `type(self).__qualname__` of a Logic or Bit. -/
def clsName : Logic.Cls → PyStr
  | .logic => "Logic".toList
  | .bit => "Bit".toList

/-- `Logic.__repr__`, _logic.py:235-236. -/
def reprLogic (o : Logic.Obj) : PyStr := clsName o.cls ++ ['('] ++ quote [o.v.chr] ++ [')']

/-- `LogicArray.__repr__`, _logic_array.py:917-918. The string is also stored in the array; see `LA.getStr`. -/
def reprLA (a : LA) : PyM PyStr := do
  let s ← a.getStr.1
  let r ← reprRange a.range
  .ok ("LogicArray(".toList ++ quote s ++ ", ".toList ++ r ++ [')'])

mutual
/-- `repr(v)`: ints, strings and lists as Python prints them, and `Array.__repr__`, _array.py:279-280. -/
def reprVal : Val → PyM PyStr
  | .int i => .ok (intStr i)
  | .str s => .ok (quote s)
  | .logic o => .ok (reprLogic o)
  | .range r => reprRange r
  | .la a => reprLA a
  | .list vs => do
    let t ← reprs vs
    .ok ('[' :: t ++ [']'])
  | .arr vs r => do
    let t ← reprs vs
    let r ← reprRange r
    .ok ("Array(".toList ++ ('[' :: t ++ [']']) ++ ", ".toList ++ r ++ [')'])

/-- The elements of a list, with `", "` between them. -/
def reprs : List Val → PyM PyStr
  | [] => .ok []
  | [v] => reprVal v
  | v :: vs => do
    let t ← reprVal v
    let ts ← reprs vs
    .ok (t ++ ", ".toList ++ ts)
end

end Verif.ReprM
