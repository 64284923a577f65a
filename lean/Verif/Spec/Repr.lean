import Verif.Model.Repr
import Verif.Spec.LogicArray
/-!
# What a text means as a Python expression, after `from cocotb.types import *`

Only the expressions needed: decimal numbers, strings in single quotes without escapes, lists, and calls of the
constructors, with a blank after each comma.
-/
namespace Verif.ReprS
open Verif ReprM Spec

/-- A decimal digit. -/
def isDig (c : Char) : Bool := (decDigit c).isSome

/-- The number a text starts with, and what follows. -/
def number (s : PyStr) : Option (Nat × PyStr) := (parseDec (s.takeWhile isDig)).map (·, s.dropWhile isDig)

/-- Call of a constructor by its name. -/
def construct (name : PyStr) (vs : List Val) : Option Val :=
  if name = "Range".toList then match vs with
    | [.int l, .str d, .int r] => match Range.mkStr l (String.ofList d) r with
      | .ok r => some (.range r)
      | .error _ => none
    | _ => none
  else if name = "Logic".toList then match vs with
    | [.str s] => match Logic.new .logic (.str s) with
      | .ok o => some (.logic o)
      | .error _ => none
    | _ => none
  else if name = "Bit".toList then match vs with
    | [.str s] => match Logic.new .bit (.str s) with
      | .ok o => some (.logic o)
      | .error _ => none
    | _ => none
  else if name = "LogicArray".toList then match vs with
    | [.str s, .range r] => match LA.new (.str s) (.range r) with
      | .ok a => some (.la a)
      | .error _ => none
    | _ => none
  else if name = "Array".toList then match vs with
    | [.list vs, .range r] => match Arr.new vs (.range r) with
      | .ok a => some (.arr a.value a.range)
      | .error _ => none
    | _ => none
  else none

mutual
/-- The value of the expression a text starts with, and what follows; `none` if there is none or an exception is raised.
The number bounds the nesting. -/
def evalExpr : Nat → PyStr → Option (Val × PyStr)
  | 0, _ => none
  | _ + 1, [] => none
  | n + 1, c :: t =>
    if c = '\'' then
      match t.dropWhile (fun c => decide (c ≠ '\'')) with
      | _ :: r =>
        let w := t.takeWhile fun c => decide (c ≠ '\'')
        if '\\' ∈ w ∨ '\n' ∈ w then none else some (.str w, r)
      | [] => none
    else if c = '[' then
      match evalArgs n ']' t with
      | some (vs, r) => some (.list vs, r)
      | none => none
    else if c = '-' then
      match number t with
      | some (k, r) => some (.int (-(k : Int)), r)
      | none => none
    else if isDig c then
      match number (c :: t) with
      | some (k, r) => some (.int k, r)
      | none => none
    else match (c :: t).dropWhile Char.isAlpha with
      | '(' :: r => match evalArgs n ')' r with
        | some (vs, r) => match construct ((c :: t).takeWhile Char.isAlpha) vs with
          | some v => some (v, r)
          | none => none
        | none => none
      | _ => none

/-- Expressions separated by commas, up to the closing bracket. -/
def evalArgs : Nat → Char → PyStr → Option (List Val × PyStr)
  | 0, _, _ => none
  | _ + 1, _, [] => none
  | n + 1, close, c :: t =>
    if c = close then some ([], t)
    else match evalExpr n (c :: t) with
      | some (v, ',' :: ' ' :: r) => match evalArgs n close r with
        | some (vs, r) => some (v :: vs, r)
        | none => none
      | some (v, d :: r) => if d = close then some ([v], r) else none
      | _ => none
end

/-- `eval(text)`. -/
def pyEval (s : PyStr) : Option Val :=
  match evalExpr (2 * s.length) s with
  | some (v, []) => some v
  | _ => none

/-- Printable ASCII without quotes and backslashes. -/
def plainStr (s : PyStr) : Prop := ∀ c ∈ s, 32 ≤ c.toNat ∧ c.toNat < 127 ∧ c ≠ '\'' ∧ c ≠ '\\'

mutual
/-- Two values are the same: equal numbers, strings and Logic values of the same class, equal ranges, arrays with the same
elements and the same range. `Like v v` says that `v` is an object as the constructors make them. -/
inductive Like : Val → Val → Prop where
  | int (i : Int) : Like (.int i) (.int i)
  | str (s : PyStr) : plainStr s → Like (.str s) (.str s)
  | logic (o : Logic.Obj) : o.cls.allows o.v = true → Like (.logic o) (.logic o)
  | range (r : Range) : r.Valid → Like (.range r) (.range r)
  | la (a b : LA) (l : List Logic) : Rep a l → Rep b l → a.range = b.range → Like (.la a) (.la b)
  | list (vs ws : List Val) : LikeAll vs ws → Like (.list vs) (.list ws)
  | arr (vs ws : List Val) (r : Range) : LikeAll vs ws → r.Valid → vs.length = r.len → Like (.arr vs r) (.arr ws r)

/-- Element by element. -/
inductive LikeAll : List Val → List Val → Prop where
  | nil : LikeAll [] []
  | cons (v w : Val) (vs ws : List Val) : Like v w → LikeAll vs ws → LikeAll (v :: vs) (w :: ws)
end

end Verif.ReprS
