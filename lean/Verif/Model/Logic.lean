import Verif.Py.Int
/-!
# `cocotb.types.Logic`, `Bit` (src/cocotb/types/_logic.py) and resolvers (types/_resolve.py)
-/
namespace Verif

/-- The nine values, in the order of the internal codes 0..8, _logic.py:22-30. -/
inductive Logic where
  | U | X | F0 | F1 | Z | W | L | H | D
  deriving DecidableEq, Repr

namespace Logic

/-- Internal code (`_repr`), _logic.py:22-30. -/
def code : Logic → Nat
  | U => 0 | X => 1 | F0 => 2 | F1 => 3 | Z => 4 | W => 5 | L => 6 | H => 7 | D => 8

/-- All values in code order. -/
def all : List Logic := [U, X, F0, F1, Z, W, L, H, D]

/-- `str(Logic)`, _logic.py:238-239. -/
def chr : Logic → Char
  | U => 'U' | X => 'X' | F0 => '0' | F1 => '1' | Z => 'Z' | W => 'W' | L => 'L' | H => 'H'
  | D => '-'

/-- The single-character string keys of `_literal_repr`, _logic.py:32-59. -/
def ofLiteralChar : Char → Option Logic
  | 'U' => some U | 'u' => some U
  | 'X' => some X | 'x' => some X
  | '0' => some F0
  | '1' => some F1
  | 'Z' => some Z | 'z' => some Z
  | 'W' => some W | 'w' => some W
  | 'L' => some L | 'l' => some L
  | 'H' => some H | 'h' => some H
  | '-' => some D
  | _ => none

/-- The string keys of `_literal_repr`, _logic.py:32-59: only one-character strings. -/
def ofLiteralStr : PyStr → Option Logic
  | [c] => ofLiteralChar c
  | _ => none

/-- The integer keys of `_literal_repr`, _logic.py:40,43 (`False`/`True` are 0/1). -/
def ofLiteralInt (i : Int) : Option Logic :=
  if i = 0 then some F0 else if i = 1 then some F1 else none

/-- The two classes `Logic` and `Bit(Logic)`. -/
inductive Cls where
  | logic | bit
  deriving DecidableEq, Repr

/-- `cls._values`, _logic.py:112 and 338. -/
def Cls.allows : Cls → Logic → Bool
  | .logic, _ => true
  | .bit, v => v = F0 || v = F1

/-- A `Logic` or `Bit` object. -/
structure Obj where
  cls : Cls
  v : Logic
  deriving DecidableEq, Repr

/-- Constructor arguments: strings, integers (and booleans), other `Logic` objects, or anything
else. -/
inductive Lit where
  | str (s : PyStr)
  | int (i : Int)
  | obj (o : Obj)
  | other
  deriving DecidableEq

/-- `Logic.__new__` / `Bit.__new__`, _logic.py:126-147. -/
def new (cls : Cls) (value : Lit) : PyM Obj :=
  let r : PyM Logic := match value with
    | .obj o => .ok o.v
    | .str s => match ofLiteralStr s with
      | some v => .ok v
      | none => .error .valueError
    | .int i => match ofLiteralInt i with
      | some v => .ok v
      | none => .error .valueError
    | .other => .error .typeError
  match r with
  | .error e => .error e
  | .ok v => if cls.allows v then .ok ⟨cls, v⟩ else .error .valueError

/-- The table of `Logic.__and__`, _logic.py:154-166. -/
def andTable : List (List Logic) := [
  [U, U, F0, U, U, U, F0, U, U],
  [U, X, F0, X, X, X, F0, X, X],
  [F0, F0, F0, F0, F0, F0, F0, F0, F0],
  [U, X, F0, F1, X, X, F0, F1, X],
  [U, X, F0, X, X, X, F0, X, X],
  [U, X, F0, X, X, X, F0, X, X],
  [F0, F0, F0, F0, F0, F0, F0, F0, F0],
  [U, X, F0, F1, X, X, F0, F1, X],
  [U, X, F0, X, X, X, F0, X, X]]

/-- The table of `Logic.__or__`, _logic.py:177-189. -/
def orTable : List (List Logic) := [
  [U, U, U, F1, U, U, U, F1, U],
  [U, X, X, F1, X, X, X, F1, X],
  [U, X, F0, F1, X, X, F0, F1, X],
  [F1, F1, F1, F1, F1, F1, F1, F1, F1],
  [U, X, X, F1, X, X, X, F1, X],
  [U, X, X, F1, X, X, X, F1, X],
  [U, X, F0, F1, X, X, F0, F1, X],
  [F1, F1, F1, F1, F1, F1, F1, F1, F1],
  [U, X, X, F1, X, X, X, F1, X]]

/-- The table of `Logic.__xor__`, _logic.py:200-212. -/
def xorTable : List (List Logic) := [
  [U, U, U, U, U, U, U, U, U],
  [U, X, X, X, X, X, X, X, X],
  [U, X, F0, F1, X, X, F0, F1, X],
  [U, X, F1, F0, X, X, F1, F0, X],
  [U, X, X, X, X, X, X, X, X],
  [U, X, X, X, X, X, X, X, X],
  [U, X, F0, F1, X, X, F0, F1, X],
  [U, X, F1, F0, X, X, F1, F0, X],
  [U, X, X, X, X, X, X, X, X]]

/-- The row of `Logic.__invert__`, _logic.py:219. -/
def notTable : List Logic := [U, X, F1, F0, X, X, F1, F0, X]

/-- `table[self._repr][other._repr]`; the default is unreachable (all tables are 9 by 9). -/
def lookup2 (t : List (List Logic)) (a b : Logic) : Logic := ((t[a.code]?.getD [])[b.code]?).getD U

/-- Value computed by `__and__`, _logic.py:152-167. -/
def and (a b : Logic) : Logic := lookup2 andTable a b
/-- Value computed by `__or__`, _logic.py:175-190. -/
def or (a b : Logic) : Logic := lookup2 orTable a b
/-- Value computed by `__xor__`, _logic.py:198-213. -/
def xor (a b : Logic) : Logic := lookup2 xorTable a b
/-- Value computed by `__invert__`, _logic.py:218-219. -/
def not (a : Logic) : Logic := (notTable[a.code]?).getD U

/-- `isinstance(x, cls)` for the two classes. -/
def isInstance (x : Obj) (c : Cls) : Bool := match c with
  | .logic => true
  | .bit => x.cls = .bit

/-- One operator method (`__and__` etc.), _logic.py:149-152: `none` is `NotImplemented`,
otherwise the result is `type(self)(value)`. -/
def opMethod (f : Logic → Logic → Logic) (self other : Obj) : Option (PyM Obj) :=
  if isInstance other self.cls then some (new self.cls (.obj ⟨.logic, f self.v other.v⟩)) else none

/-- The expression `a & b` (resp. `|`, `^`): the left method, then, when it returns
`NotImplemented` and the types differ, the reflected method of the right operand, which is
`self & other` with the right operand as `self`, _logic.py:149-216; `TypeError` if both decline. -/
def binop (f : Logic → Logic → Logic) (a b : Obj) : PyM Obj :=
  match opMethod f a b with
  | some r => r
  | none => match opMethod f b a with
    | some r => r
    | none => .error .typeError

/-- The expression `~a`, _logic.py:218-219. -/
def inv (a : Obj) : PyM Obj := new a.cls (.obj ⟨.logic, not a.v⟩)

/-- `Logic.is_resolvable`, _logic.py:305-311. -/
def isResolvable (a : Logic) : Bool :=
  ([false, false, true, true, false, false, true, true, false][a.code]?).getD false

/-- `Logic.__eq__`, _logic.py:221-231; `none` is `NotImplemented`. -/
def eq (a : Obj) (rhs : Lit) : Option Bool :=
  match rhs with
  | .obj o => some (a.v = o.v)
  | .str s => match new .logic (.str s) with
    | .ok o => some (a.v = o.v)
    | .error _ => some false
  | .int i => match new .logic (.int i) with
    | .ok o => some (a.v = o.v)
    | .error _ => some false
  | .other => none

end Logic

/-! ## Resolvers, types/_resolve.py -/

/-- Valid resolver names, _resolve.py:45. -/
inductive Resolver where
  | error | weak | zeros | ones | random
  deriving DecidableEq, Repr

namespace Resolver

/-- `get_str_resolver` name check, _resolve.py:52-54. -/
def ofName (s : String) : PyM Resolver :=
  if s = "error" then .ok .error
  else if s = "weak" then .ok .weak
  else if s = "zeros" then .ok .zeros
  else if s = "ones" then .ok .ones
  else if s = "random" then .ok .random
  else .error .valueError

/-- `str.translate` with the table of the resolver for one character, _resolve.py:38-43. -/
def table : Resolver → Char → Char
  | .weak, 'L' => '0' | .weak, 'H' => '1' | .weak, 'W' => 'X'
  | .zeros, 'L' => '0' | .zeros, 'H' => '1' | .zeros, 'U' => '0' | .zeros, 'X' => '0'
  | .zeros, 'Z' => '0' | .zeros, 'W' => '0' | .zeros, '-' => '0'
  | .ones, 'L' => '0' | .ones, 'H' => '1' | .ones, 'U' => '1' | .ones, 'X' => '1'
  | .ones, 'Z' => '1' | .ones, 'W' => '1' | .ones, '-' => '1'
  | _, c => c

/-- The dictionary part of the random table, _resolve.py:24-29. -/
def randomFixed : Char → Option Char
  | '0' => some '0' | '1' => some '1' | 'L' => some '0' | 'H' => some '1' | _ => none

/-- The random resolver, _resolve.py:24-32, 59-60: characters are looked up left to right; a
missing one draws the next random bit of the generator `rng` (the stream of future draws). Returns
the string and the generator after the draws. -/
def randomStr : PyStr → (Nat → Bool) → PyStr × (Nat → Bool)
  | [], rng => ([], rng)
  | c :: cs, rng =>
    match randomFixed c with
    | some d => let (t, rng') := randomStr cs rng; (d :: t, rng')
    | none => let (t, rng') := randomStr cs (fun i => rng (i + 1)); (bitChar (rng 0) :: t, rng')

/-- The string resolver function returned by `get_str_resolver`, _resolve.py:56-68. -/
def apply (r : Resolver) (s : PyStr) (rng : Nat → Bool) : PyStr × (Nat → Bool) :=
  match r with
  | .random => randomStr s rng
  | r => (s.map r.table, rng)

/-- `RESOLVE_X` from `COCOTB_RESOLVE_X`, _resolve.py:71-91: empty means none, `value_error` is an
alias of `error`, an unknown name raises. The argument is the value after `strip` (`_env.get_str`). -/
def ofEnv (v : String) : PyM (Option Resolver) :=
  let v := v.toLower
  if v = "" then .ok none
  else
    let v := if v = "value_error" then "error" else v
    match ofName v with
    | .ok r => .ok (some r)
    | .error e => .error e

end Resolver

namespace Logic

/-- `Logic.__bool__`, _logic.py:243-248 (no resolver) and 259-260. -/
def toBool (rx : Option Resolver) (a : Logic) : PyM Bool :=
  match rx with
  | none => if a = F0 ∨ a = L then .ok false else if a = F1 ∨ a = H then .ok true
      else .error .valueError
  | some _ => .ok (a = F1 ∨ a = H)

/-- `Logic.__int__`, _logic.py:250-255 (no resolver) and 262-265. -/
def toInt (rx : Option Resolver) (rng : Nat → Bool) (a : Logic) : PyM Int :=
  match rx with
  | none => if a = F0 ∨ a = L then .ok 0 else if a = F1 ∨ a = H then .ok 1
      else .error .valueError
  | some r => pyIntBase2 (r.apply [a.chr] rng).1

/-- `Logic.resolve`, _logic.py:270-300: `type(self)(resolver(str(self)))`. -/
def resolve (a : Obj) (r : Resolver) (rng : Nat → Bool) : PyM Obj :=
  new a.cls (.str (r.apply [a.v.chr] rng).1)

end Logic
end Verif
