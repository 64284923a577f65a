import Verif.Model.Decorators
import Verif.Model.Regression
/-!
# Tests decorated for cocotb and run by pytest (src/cocotb_tools/_pytest/_compat.py), and which process collects what
(src/cocotb_tools/_pytest/plugin.py, _controller.py, _regression.py, _runner.py)

The parts of pytest that give markers their meaning are modelled after its documentation and source (version 8):
`_pytest/skipping.py` (skip and xfail), `_pytest/python.py` and `_pytest/mark/structures.py` (parametrize),
`_pytest/nodes.py` (closest markers and keywords). Options of the command line (`--runxfail`, `-k`) have their defaults.
-/
namespace Verif.PytestDeco
open Verif Deco Reg

/-! ## Decorators as markers -/

/-- A value given to an argument by pytest: an object, a row of objects, or pytest's `NOTSET`. -/
inductive PVal where
  | obj (o : Obj)
  | row (l : List Obj)
  | notset
  deriving DecidableEq, Repr

/-- A marker of pytest. The condition and the reason of `xfail` are not used; timeouts are numbers, as in
`Model/Decorators`. -/
inductive Mark where
  | parametrize (argnames : PyStr) (values : List PVal)
  | order (stage : Int)
  | skip
  | xfail (raises : Option (List Expect)) (strict : Bool)
  | timeout (t : Nat)
  | test
  | other (id : Nat)
  deriving DecidableEq, Repr

/-- What the decorators of cocotb have recorded for a function, and the markers (`pytestmark`) it had before.
_decorators.py:71-99. -/
structure Given where
  timeout : Option Nat
  expectFail : Bool
  expectError : List Expect
  skip : Bool
  stage : Int
  options : List Opt
  own : List Mark
  deriving DecidableEq, Repr

/-- `",".join(names)`. -/
def joinNames : List PyStr → PyStr
  | [] => []
  | [n] => n
  | n :: ns => n ++ ',' :: joinNames ns

/-- The marker for one option. _compat.py:89-93. -/
def optMark : Opt → Mark
  | .one n vs => .parametrize n (vs.map .obj)
  | .many ns rows => .parametrize (joinNames ns) (rows.map .row)

/-- `_as_pytest_marks` for a function that was not converted before. _compat.py:80-118. -/
def asMarks (g : Given) : List Mark :=
  g.options.map optMark ++
  (if g.stage ≠ 0 then [.order g.stage] else []) ++
  (if g.skip then [.skip] else []) ++
  (if g.expectFail || !g.expectError.isEmpty then
    [.xfail (if g.expectError.isEmpty then none else some g.expectError) true] else []) ++
  (match g.timeout with | some t => [.timeout t] | none => []) ++
  [.test] ++ g.own

/-! ## What pytest makes of them -/

/-- `isinstance(e, raises)` for a tuple: elements are looked at in order, and one that is no class raises TypeError. -/
def isinstanceTuple (W : World) (e : Exc) : List Expect → PyM Bool
  | [] => .ok false
  | .cls c :: l => if W.isa e c then .ok true else isinstanceTuple W e l
  | .matcher _ :: _ => .error .typeError

/-- The outcome of a test for pytest; `crash` is an exception in a hook, which ends the session. -/
inductive Shown where
  | passed
  | failed
  | skipped
  | xfailed
  | crash
  deriving DecidableEq, Repr

/-- The arguments of an xfail marker. -/
def xfailOf : Mark → Option (Option (List Expect) × Bool)
  | .xfail r s => some (r, s)
  | _ => none

/-- The first xfail marker: `evaluate_xfail_marks`. -/
def xfailMark (marks : List Mark) : Option (Option (List Expect) × Bool) := marks.findSome? xfailOf

/-- `pytest_runtest_setup` and `pytest_runtest_makereport` of `_pytest/skipping.py` for a test with these markers that
ends, if it is run, with `exc` (`TestManager.result`, _regression.py:374-388). -/
def pytestOutcome (W : World) (marks : List Mark) (exc : Option Exc) : Shown :=
  if Mark.skip ∈ marks then .skipped
  else match exc with
    | some e =>
      if W.isXfail e then .xfailed
      else if W.isSkip e then .skipped
      else match xfailMark marks with
        | none => .failed
        | some (none, _) => .xfailed
        | some (some r, _) => match isinstanceTuple W e r with
          | .ok true => .xfailed
          | .ok false => .failed
          | .error _ => .crash
    | none => match xfailMark marks with
      | some (_, true) => .failed
      | _ => .passed

/-- The argument of a timeout marker. -/
def markTimeout : Mark → Option Nat
  | .timeout t => some t
  | _ => none

/-- `_get_timeout`: the closest `cocotb_timeout` marker. _regression.py:930-934. -/
def timeoutOf (marks : List Mark) : Option Nat := marks.findSome? markTimeout

/-- `s.split(",")`. -/
def splitComma : PyStr → List PyStr
  | [] => [[]]
  | c :: s => if c = ',' then [] :: splitComma s
    else match splitComma s with
      | [] => [[c]]
      | w :: ws => (c :: w) :: ws

/-- `s.strip()`. -/
def stripBlank (s : PyStr) : PyStr :=
  ((s.dropWhile Char.isWhitespace).reverse.dropWhile Char.isWhitespace).reverse

/-- The names in the first argument of `parametrize`: `ParameterSet._parse_parametrize_args`. -/
def argNames (s : PyStr) : List PyStr := ((splitComma s).map stripBlank).filter (· ≠ [])

/-- One element of the second argument: `ParameterSet.extract_from` with `force_tuple` for a single name, and the
check of its length. -/
def extract (names : List PyStr) (v : PVal) : PyM (List PVal) :=
  if names.length = 1 then .ok [v]
  else match v with
    | .row l => if l.length = names.length then .ok (l.map .obj) else .error .valueError
    | _ => .error .typeError

/-- All elements. -/
def extractAll (names : List PyStr) : List PVal → PyM (List (List PVal))
  | [] => .ok []
  | v :: vs => match extract names v with
    | .error e => .error e
    | .ok x => match extractAll names vs with
      | .error e => .error e
      | .ok xs => .ok (x :: xs)

/-- One call of the test function: its arguments, and whether it is skipped because of an empty set of values. -/
structure Call where
  args : List (PyStr × PVal)
  skipped : Bool
  deriving DecidableEq, Repr

/-- `Metafunc.parametrize`. -/
def parametrize (argnames : PyStr) (values : List PVal) (calls : List Call) : PyM (List Call) :=
  let names := argNames argnames
  match extractAll names values with
  | .error e => .error e
  | .ok sets =>
    let sets' : List (List PVal × Bool) :=
      if sets = [] then [(names.map fun _ => .notset, true)] else sets.map (·, false)
    if calls.any fun c => names.any fun n => (c.args.map (·.1)).contains n then .error .valueError
    else .ok (calls.flatMap fun c => sets'.map fun s => ⟨c.args ++ names.zip s.1, c.skipped || s.2⟩)

/-- `pytest_generate_tests`: the markers in order. -/
def callsFrom : List Mark → List Call → PyM (List Call)
  | [], calls => .ok calls
  | .parametrize a vs :: ms, calls => match parametrize a vs calls with
    | .error e => .error e
    | .ok calls => callsFrom ms calls
  | _ :: ms, calls => callsFrom ms calls

/-- The calls of a function with these markers. -/
def pytestCalls (marks : List Mark) : PyM (List Call) := callsFrom marks [⟨[], false⟩]

/-! ## Collection -/

/-- A function in a Python module: is it asynchronous, has it a parameter `dut`, was it decorated for cocotb, does its
name match what pytest looks for, and its own markers `cocotb_test` and `cocotb_runner`, the latter with the modules it
names. -/
structure Func where
  name : Nat
  async : Bool
  dut : Bool
  decorated : Bool
  matching : Bool
  test : Bool
  runner : Option (List Nat)
  deriving DecidableEq, Repr

/-- A module: its functions, and whether the module (or a directory above it) has the markers, without arguments; whether a directory above
it is called `cocotb_test`. -/
structure Module where
  funcs : List Func
  test : Bool
  runner : Bool
  dirNamedTest : Bool
  deriving DecidableEq, Repr

/-- `pytest_pycollect_makeitem` of the plugin, in both processes: the function has the marker `cocotb_test` afterwards.
plugin.py:671-700, _compat.py:24-62. -/
def ownTest (f : Func) : Bool :=
  f.decorated || f.test || (f.runner.isNone && f.async && f.dut)

/-- pytest makes an item of the function: `__test__` was set or the name matches. plugin.py:683-688, _compat.py:120-121. -/
def collected (f : Func) : Bool := f.decorated || f.test || f.runner.isSome || f.matching

/-- `item.get_closest_marker("cocotb_test")`. -/
def closestTest (m : Module) (f : Func) : Bool := ownTest f || m.test

/-- `item.get_closest_marker("cocotb_runner")`. -/
def closestRunner (m : Module) (f : Func) : Bool := f.runner.isSome || m.runner

/-- The modules a runner names: those of the first marker with arguments, or else its own. _runner.py:47-53. -/
def runnerModules (self : Nat) (f : Func) : List Nat :=
  match f.runner with
  | some (m :: ms) => m :: ms
  | _ => [self]

/-- Functions below a runner that the main process runs, `Controller._collect` with a runner among the parents and
without `--collect-only`. _controller.py:274-329. -/
def keepUnder (m : Module) (f : Func) : Bool :=
  collected f &&
    if f.async then !closestRunner m f && !closestTest m f
    else !closestTest m f && !closestRunner m f

/-- What `Controller._collect` yields for a function of a module without a runner among the parents, with what the runner
then collects. An item is a module and a function. _controller.py:274-329, _runner.py:41-64. -/
def topItems (mods : Nat → Module) (self : Nat) (f : Func) : List (Nat × Func) :=
  let m := mods self
  if !collected f then []
  else if f.async then
    if closestRunner m f then []
    else if closestTest m f then []
    else [(self, f)]
  else if closestTest m f then []
  else if closestRunner m f then
    (self, f) :: (runnerModules self f).flatMap fun k => ((mods k).funcs.filter (keepUnder (mods k))).map (k, ·)
  else [(self, f)]

/-- What the main process runs when it is given some modules. -/
def mainItems (mods : Nat → Module) (given : List Nat) : List (Nat × Func) :=
  given.flatMap fun k => (mods k).funcs.flatMap (topItems mods k)

/-- `RegressionManager._collect` in the simulator: `"cocotb_test" in item.keywords`, where keywords are the names of
markers and the names of the item and its parents. _regression.py:310-322. -/
def keepSim (m : Module) (f : Func) : Bool :=
  collected f && (closestTest m f || m.dirNamedTest) && f.async

/-- What the simulator runs when it is given some modules. -/
def simItems (mods : Nat → Module) (given : List Nat) : List (Nat × Func) :=
  given.flatMap fun k => ((mods k).funcs.filter (keepSim (mods k))).map (k, ·)

end Verif.PytestDeco
