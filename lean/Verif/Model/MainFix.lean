/-!
# Fixtures in the main process of pytest (`Controller.pytest_fixture_setup`, src/cocotb_tools/_pytest/_controller.py)

The main process runs runners and ordinary tests. Fixtures of cocotb tests, which may be coroutine functions, are seen there too. pytest itself
is modelled as far as it matters, from its documentation: `FixtureDef.execute` with its cached result.
-/
namespace Verif.MainFix

/-- A Python value: one of the user's, `None`, or the coroutine made by calling the fixture with this number. -/
inductive Val where
  | user (n : Nat)
  | none
  | coroutine (fixture : Nat)
  deriving DecidableEq, Repr

/-- What a fixture has: a value or an exception (by number). -/
abbrev Res := Except Nat Val

/-- A fixture. The code is a function of the arguments; the code after a `yield` does not matter here. -/
structure Fixture where
  /-- A coroutine function or an asynchronous generator. -/
  async : Bool
  autouse : Bool
  /-- The scope is wider than a test. -/
  wide : Bool
  /-- The fixtures it requests. -/
  args : List Nat
  code : List Val → Res

/-- A test: the fixtures pytest sets up for it, each after those it requests (those with `autouse`, the arguments of the test, and all they request), and
the arguments. -/
structure Test where
  fixtures : List Nat
  args : List Nat

/-- What the user sees. -/
inductive Ev where
  /-- The fixture's code is called. -/
  | fixture (n : Nat) (args : List Val)
  /-- The test is called. -/
  | test (k : Nat) (args : List Val)
  /-- The setup of the test fails. -/
  | error (k : Nat)
  deriving DecidableEq, Repr

/-- `FixtureDef.cached_result` of all fixtures, and the events so far. -/
structure St where
  cache : Nat → Option Res
  evs : List Ev

/-- `request.getfixturevalue`; the number 0 stands for the exception of pytest for a fixture that was not set up. -/
def getValue (s : St) (n : Nat) : Res :=
  match s.cache n with
  | none => .error 0
  | some r => r

/-- All the values, or the first exception. -/
def getAll (s : St) : List Nat → Except Nat (List Val)
  | [] => .ok []
  | n :: ns =>
    match getValue s n with
    | .error e => .error e
    | .ok v =>
      match getAll s ns with
      | .error e => .error e
      | .ok vs => .ok (v :: vs)

/-- An entry of the cache is set. -/
def St.set (s : St) (n : Nat) (r : Res) : St :=
  { s with cache := fun m => if m = n then some r else s.cache m }

/-- `Controller.pytest_fixture_setup`: `true` if the fixture is skipped, with the cached result `None`. _controller.py:331-354. -/
def skips (f : Fixture) : Bool := f.autouse && f.async

/-- `FixtureDef.execute`: the cached result, or else the hook above, or else that of pytest, which calls the function; calling a coroutine function
runs nothing of it. The state, and whether all is well. _controller.py:331-354. -/
def execute (F : Nat → Fixture) (n : Nat) (s : St) : St × Bool :=
  match s.cache n with
  | some (.ok _) => (s, true)
  | some (.error _) => (s, false)
  | none =>
    if skips (F n) then (s.set n (.ok .none), true)
    else
      match getAll s (F n).args with
      | .error e => (s.set n (.error e), false)
      | .ok vs =>
        if (F n).async then (s.set n (.ok (.coroutine n)), true)
        else
          match (F n).code vs with
          | .ok v => (({ s with evs := s.evs ++ [.fixture n vs] } : St).set n (.ok v), true)
          | .error e => (({ s with evs := s.evs ++ [.fixture n vs] } : St).set n (.error e), false)

/-- The fixtures of a test in order, up to the first that fails. -/
def executeAll (F : Nat → Fixture) : List Nat → St → St × Bool
  | [], s => (s, true)
  | n :: ns, s =>
    match execute F n s with
    | (s, true) => executeAll F ns s
    | (s, false) => (s, false)

/-- The end of a test: pytest forgets the results of fixtures with the scope of a test. -/
def endTest (F : Nat → Fixture) (s : St) : St :=
  { s with cache := fun n => if (F n).wide then s.cache n else none }

/-- The `k`-th test of the main process, which is no coroutine. -/
def runTest (F : Nat → Fixture) (k : Nat) (t : Test) (s : St) : St :=
  match executeAll F t.fixtures s with
  | (s, false) => endTest F { s with evs := s.evs ++ [.error k] }
  | (s, true) =>
    match getAll s t.args with
    | .error _ => endTest F { s with evs := s.evs ++ [.error k] }
    | .ok vs => endTest F { s with evs := s.evs ++ [.test k vs] }

/-- All tests, numbered from `k`. -/
def runFrom (F : Nat → Fixture) : Nat → List Test → St → St
  | _, [], s => s
  | k, t :: ts, s => runFrom F (k + 1) ts (runTest F k t s)

/-- A session of the main process. -/
def session (F : Nat → Fixture) (ts : List Test) : List Ev := (runFrom F 0 ts ⟨fun _ => none, []⟩).evs

end Verif.MainFix
