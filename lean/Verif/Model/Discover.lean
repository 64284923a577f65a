import Verif.Model.Regression
import Verif.Model.Runner
/-!
# Finding, selecting and listing tests (src/cocotb/regression.py)

What executing the code of a module binds is given by a list of statements; the tests a parametrised function generates
are given as a list (`Model/Decorators` computes it), or as the exception generating them raises.
-/
namespace Verif.Discover
open Verif Reg Env

/-- An object in a module: a `Test`, a `TestGenerator` with the tests it generates, or anything else. -/
inductive Obj where
  | test (t : Test)
  | gen (g : PyM (List Test))
  | other

/-- What the code of a module does to its names: binding (definition, assignment, import) or `del`. -/
inductive Stmt where
  | bind (name : PyStr) (o : Obj)
  | del (name : PyStr)

/-- `d[name] = o` for a dict: an existing key keeps its place. -/
def setKey (name : PyStr) (o : Obj) : List (PyStr × Obj) → List (PyStr × Obj)
  | [] => [(name, o)]
  | (n, p) :: d => if n = name then (n, o) :: d else (n, p) :: setKey name o d

/-- One statement. -/
def exec (d : List (PyStr × Obj)) : Stmt → List (PyStr × Obj)
  | .bind n o => setKey n o d
  | .del n => d.filter (·.1 ≠ n)

/-- `vars(mod)` after the module has been imported. -/
def namespaceOf (body : List Stmt) : List (PyStr × Obj) := body.foldl exec []

/-- A warning. -/
inductive Warning where
  /-- "TestGenerator generated no tests" -/
  | noneGenerated (module : Text) (name : PyStr)
  /-- "No tests were discovered in module" -/
  | noTests (module : Text)
  deriving DecidableEq

/-- What has been found: registered tests, `found_test` and warnings. -/
structure Found where
  tests : List Test
  found : Bool
  warnings : List Warning

/-- The objects of one module. regression.py:257-272. -/
def scan (module : Text) : List (PyStr × Obj) → Found → PyM Found
  | [], f => .ok f
  | (_, .test t) :: d, f => scan module d { f with tests := f.tests ++ [t], found := true }
  | (n, .gen g) :: d, f => match g with
    | .error e => .error e
    | .ok ts => scan module d ⟨f.tests ++ ts, true, if ts = [] then f.warnings ++ [.noneGenerated module n] else f.warnings⟩
  | (_, .other) :: d, f => scan module d f

/-- The loop over the modules; `imp` is `import_module`. regression.py:254-277. -/
def scanAll (imp : Text → PyM (List Stmt)) : List Text → List Test → List Warning → PyM (List Test × List Warning)
  | [], q, w => .ok (q, w)
  | m :: ms, q, w => match imp m with
    | .error e => .error e
    | .ok body => match scan m (namespaceOf body) ⟨q, false, w⟩ with
      | .error e => .error e
      | .ok f => scanAll imp ms f.tests (if f.found then f.warnings else f.warnings ++ [.noTests m])

/-- `discover_tests` of a new manager. regression.py:246-282. -/
def discover (imp : Text → PyM (List Stmt)) (modules : List Text) : PyM (List Test × List Warning) :=
  match scanAll imp modules [] [] with
  | .error e => .error e
  | .ok (q, w) => if q = [] then .error .runtimeError else .ok (q, w)

/-- The manager before `start_regression`. -/
structure Manager where
  queue : List Test
  filters : List (PyStr → Bool)
  testcaseMode : Bool

/-- `add_filters`; `compile` is `re.compile(·).search`. regression.py:284-298. -/
def compileAll (compile : Text → PyM (PyStr → Bool)) : List Text → PyM (List (PyStr → Bool))
  | [] => .ok []
  | f :: fs => match compile f with
    | .error e => .error e
    | .ok g => match compileAll compile fs with
      | .error e => .error e
      | .ok gs => .ok (g :: gs)

/-- A name in the environment. -/
def var (s : String) : Text := ofStr s.toList

/-- `_setup_regression_manager`. Assertion rewriting is left out. regression.py:1144-1174; the filters are
`Runner.filters`. -/
def setup (imp : Text → PyM (List Stmt)) (compile : Text → PyM (PyStr → Bool)) (env : Environ) : PyM Manager :=
  match getList env (var "COCOTB_TEST_MODULES") none [44] with
  | .error e => .error e
  | .ok modules =>
    if modules = [] then .error .runtimeError
    else match discover imp modules with
      | .error e => .error e
      | .ok (q, _) => match Runner.filters env with
        | .error e => .error e
        | .ok fs => match compileAll compile fs with
          | .error e => .error e
          | .ok gs => .ok ⟨q, gs, decide (fs ≠ [])⟩

/-- What a run does: print names, or run tests. -/
inductive Act where
  | list (names : List PyStr)
  | run (tests : List Test) (testcaseMode : Bool)

/-- `_run_regression`, `list_tests` and the first half of `start_regression`; `shuffle` is `random.shuffle` if
`COCOTB_RANDOM_TEST_ORDER` is set and else the identity. regression.py:1130-1137, 1177-1196, 344-364. -/
def runRegression (U : Unicode) (imp : Text → PyM (List Stmt)) (compile : Text → PyM (PyStr → Bool))
    (shuffle : List Test → List Test) (env : Environ) : PyM Act :=
  match setup imp compile env with
  | .error e => .error e
  | .ok m => match getBool U env (var "COCOTB_LIST_TESTS") (some false) with
    | .error e => .error e
    | .ok true => .ok (.list (m.queue.map (·.fullname)))
    | .ok false => .ok (.run (plan shuffle m.filters m.queue) m.testcaseMode)

end Verif.Discover
