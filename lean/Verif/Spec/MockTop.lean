import Verif.Model.MockTop
/-! # Expressions a test module may use while tests are collected -/
namespace Verif.MockTop.Spec
open Verif.MockTop

mutual
/-- Expressions for handles: children, by name and by index, and what methods of handles give. -/
inductive Handle : Expr → Prop
  | top : Handle .top
  | attr {e} (n : PyStr) : Handle e → Handle (.attr e n)
  | item {e k} : Handle e → Plain k → Handle (.item e k)
  | call {e a} : Handle e → Plain a → Handle (.call e a)
/-- Expressions that contain them only where Python's methods for attributes, items, calls, comparisons, `int`, `len` and
conditions are used: they compare, measure and choose, and compute with the numbers found so. -/
inductive Plain : Expr → Prop
  | handle {e} : Handle e → Plain e
  | str (s) : Plain (.str s)
  | number {e} : Number e → Plain e
/-- Expressions for numbers. -/
inductive Number : Expr → Prop
  | int (n) : Number (.int n)
  | cmpL {o a b} : Handle a → Plain b → Number (.cmp o a b)
  | cmpR {o a b} : Plain a → Handle b → Number (.cmp o a b)
  | cmpN {o a b} : Number a → Number b → Number (.cmp o a b)
  | not {e} : Plain e → Number (.not e)
  | ite {c a b} : Plain c → Number a → Number b → Number (.ite c a b)
  | toInt {e} : Handle e → Number (.toInt e)
  | len {e} : Handle e → Number (.len e)
  | add {a b} : Number a → Number b → Number (.add a b)
  | range {e} : Number e → Number (.range e)
end

end Verif.MockTop.Spec
