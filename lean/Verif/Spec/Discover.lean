import Verif.Model.Discover
/-!
# Specification: tests of a module
-/
namespace Verif.DiscoverSpec
open Verif Reg Discover

/-- The name a statement is about. -/
def about : Stmt → PyStr
  | .bind n _ => n
  | .del n => n

/-- After the code has been executed the name stands for the object: no later statement is about the name. -/
def Bound (body : List Stmt) (n : PyStr) (o : Obj) : Prop :=
  ∃ pre post, body = pre ++ .bind n o :: post ∧ ∀ s ∈ post, about s ≠ n

/-- The test is the object or one of those it generates. -/
def Yields : Obj → Test → Prop
  | .test t, u => t = u
  | .gen g, u => ∃ ts, g = .ok ts ∧ u ∈ ts
  | .other, _ => False

/-- The object is a test or a function with tests. -/
def IsTest : Obj → Prop
  | .other => False
  | _ => True

/-- Generating the tests of the object raises an exception. -/
def Malformed (o : Obj) : Prop := ∃ e, o = .gen (.error e)

/-- The tests of an object, in order. -/
def testsOf : Obj → List Test
  | .test t => [t]
  | .gen (.ok ts) => ts
  | _ => []

/-- The tests a statement defines. -/
def defines : Stmt → List Test
  | .bind _ o => testsOf o
  | .del _ => []

end Verif.DiscoverSpec
