import Verif.Model.PytestSelect
/-!
# Which cocotb tests a user chooses
-/
namespace Verif.Spec.PytestSelect

open Verif.PytestSelect

/-- An expression is true, if `M` tells of which words it is. -/
def True' (M : Text → Prop) : Expr → Prop
  | .word w => M w
  | .neg e => ¬ True' M e
  | .conj a b => True' M a ∧ True' M b
  | .disj a b => True' M a ∨ True' M b

/-- The words of an expression. -/
def words : Expr → List Text
  | .word w => [w]
  | .neg e => words e
  | .conj a b | .disj a b => words a ++ words b

/-- An expression without `not`. -/
def positive : Expr → Prop
  | .word _ => True
  | .neg _ => False
  | .conj a b | .disj a b => positive a ∧ positive b

/-- The word is part of one of the names. -/
def PartOf (names : List Text) (w : Text) : Prop := ∃ n ∈ names, ∃ a b, n = a ++ w ++ b

/-- The test the user sees below its runner in the output of `--collect-only` is chosen by `-k`: the expression is true of the
names of the test and of its runner. -/
def WantedByName (e : Expr) (r : Runner) (t : Test) : Prop := True' (PartOf (t.outer.own ++ r.item.own)) e

/-- The test is chosen by `-m`: the expression is true of its markers. -/
def WantedByMark (e : Expr) (t : Test) : Prop := True' (· ∈ t.outer.marks) e

/-- The expression and the tests are as pytest has them: words have no blank and no comma (pytest's syntax), and in the
simulator a test is found under the same words and has the same markers. -/
structure Usual (e : Expr) (r : Runner) : Prop where
  syn : ∀ w ∈ words e, w ≠ [] ∧ 44 ∉ w ∧ ∀ c ∈ w, isBlank c = false
  alike : ∀ t ∈ r.tests, ∀ w ∈ words e,
    (PartOf (t.inner.own ++ r.item.own) w ↔ PartOf (t.outer.own ++ r.item.own) w)
  marks : ∀ t ∈ r.tests, ∀ m, m ∈ t.inner.marks ↔ m ∈ t.outer.marks

/-- No word of the expression is part of the name of a directory or of the session. -/
def NoDirs (e : Expr) (r : Runner) : Prop :=
  ∀ w ∈ words e, ¬ PartOf r.item.above w ∧ ∀ t ∈ r.tests, ¬ PartOf t.outer.above w

end Verif.Spec.PytestSelect
