import Verif.Model.Env
/-!
# Choosing cocotb tests with `-k` and `-m` (src/cocotb_tools/_pytest/_controller.py, _regression.py)

pytest is given: `-k` asks whether a word is part of one of the names of an item, `-m` whether an item has a marker; items
for which the expression is false are not run. Names are those in lower case. The options are the same in pytest and in the
simulator (`Verif.Shlex`).
-/
namespace Verif.PytestSelect

/-- The expressions of `-k` and `-m`. -/
inductive Expr where
  | word (w : Text)
  | neg (e : Expr)
  | conj (a b : Expr)
  | disj (a b : Expr)
  deriving DecidableEq, Repr

/-- The value of an expression. -/
def Expr.eval (m : Text → Bool) : Expr → Bool
  | .word w => m w
  | .neg e => !e.eval m
  | .conj a b => a.eval m && b.eval m
  | .disj a b => a.eval m || b.eval m

/-- `_pytest.mark.KeywordMatcher`: is a word part of one of the names? -/
def part (names : List Text) (w : Text) : Bool := names.any fun n => decide (w <:+: n)

/-- What pytest knows about an item: the names `-k` looks at (the item, what it is in, its markers), the names of the session
and of directories, at which it does not, and the markers. -/
structure Item where
  own : List Text
  above : List Text
  marks : List Text
  deriving DecidableEq, Repr

/-- `item.keywords`: has also the names of the session and of directories. -/
def Item.keywords (i : Item) : List Text := i.own ++ i.above

/-- A cocotb test as pytest collects it below its runner, and as it is collected in the simulator; the markers are the
same. -/
structure Test where
  outer : Item
  inner : Item
  deriving DecidableEq, Repr

/-- A runner with its tests. -/
structure Runner where
  item : Item
  tests : List Test
  deriving DecidableEq, Repr

/-- The names of a runner with `extra_keyword_matches` after its tests have been collected. _controller.py:298-300. -/
def runnerNames (r : Runner) : List Text := r.item.own ++ r.tests.flatMap fun t => t.outer.keywords

/-- `COCOTB_PYTEST_KEYWORDS`. _controller.py:183. -/
def sent (r : Runner) : Text := (r.item.keywords.intersperse [44]).flatten

/-- What the simulator reads from it. _init.py:29. -/
def received (r : Runner) : List Text :=
  match Env.getList (fun _ => some (sent r)) [] none [44] with
  | .ok l => l
  | .error _ => []

/-- The names of a test with `extra_keyword_matches` in the simulator. _regression.py:144, 317-320. -/
def testNames (r : Runner) (t : Test) : List Text := t.inner.own ++ received r

/-- `-k` and `-m`, if given. -/
structure Opts where
  k : Option Expr
  m : Option Expr
  deriving DecidableEq, Repr

/-- Is an item chosen? -/
def chosen (o : Opts) (names marks : List Text) : Bool :=
  (o.k.map (·.eval (part names))).getD true && (o.m.map (·.eval marks.contains)).getD true

/-- Does a test run? Its runner has to be chosen, and the test in the simulator. -/
def runs (o : Opts) (r : Runner) (t : Test) : Bool :=
  chosen o (runnerNames r) r.item.marks && chosen o (testNames r t) t.inner.marks

end Verif.PytestSelect
