import Verif.Model.Env
/-!
# Coverage of user code and profiling (src/cocotb/_init.py, src/cocotb/_profiling.py, src/cocotb/_shutdown.py,
src/cocotb/regression.py)

Pieces of user code are numbers; running one is an event. The package `coverage` and `cProfile` record what is run while they are
switched on.
-/
namespace Verif.Recorders
open Verif Env

/-- Names looked at. -/
def USER_COVERAGE : Text := ofStr "COCOTB_USER_COVERAGE".toList
/-- See above. -/
def COVERAGE : Text := ofStr "COVERAGE".toList
/-- See above. -/
def ENABLE_PROFILING : Text := ofStr "COCOTB_ENABLE_PROFILING".toList

/-- Whether coverage of user code is asked for. _init.py:113-126. -/
def wantsCoverage (U : Unicode) (env : Environ) : PyM Bool :=
  if (env USER_COVERAGE).isSome then getBool U env USER_COVERAGE none
  else if (env COVERAGE).isSome then getBool U env COVERAGE none
  else .ok false

/-- Whether profiling is asked for. _profiling.py:19. -/
def wantsProfile (U : Unicode) (env : Environ) : PyM Bool := getBool U env ENABLE_PROFILING none

/-- The functions registered for the end of the simulation. -/
inductive Cb where
  | profile
  | coverage
  | regression
  deriving DecidableEq, Repr

/-- `ran` is all user code run so far. `covering` tells that coverage is switched on, `covered` is what it has recorded and `saved`
the files it has written; `profiled` and `dumped` are the same for the profiler, where `none` tells that it was never switched on.
`cbs` is `_shutdown._callbacks`. -/
structure St where
  ran : List Nat
  covering : Bool
  covered : List Nat
  saved : List (List Nat)
  profiled : Option (List Nat)
  dumped : List (List Nat)
  cbs : List Cb
  deriving DecidableEq, Repr

/-- User code is run; `inTrigger` tells that it is run in the context `profiling_context` and profiling is enabled. -/
def runCode (inTrigger : Bool) (s : St) (c : Nat) : St :=
  { s with
    ran := s.ran ++ [c]
    covered := if s.covering then s.covered ++ [c] else s.covered
    profiled := if inTrigger then some (s.profiled.getD [] ++ [c]) else s.profiled }

/-- Start-up: what profiling and coverage are, whether the package coverage can be imported, the user code run meanwhile (importing the
test modules, the first test up to its first wait for the simulator), and whether the regression is set up without an exception. `none` stands for an exception; the functions registered before
stay registered. _init.py:31-64 and 113-166, _profiling.py:19-46, regression.py:1175-1196, pygpi/entry.py:35-43. -/
structure Start where
  profile : Bool
  coverage : Bool
  package : Bool
  startup : List Nat
  setupFails : Bool

/-- See above: the state after start-up and whether the regression has been started. -/
def start (p : Start) : St × Bool :=
  let s : St := ⟨[], false, [], [], none, [], if p.profile then [.profile] else []⟩
  if p.coverage ∧ ¬ p.package then (s, false)
  else
    let s := if p.coverage then { s with covering := true, cbs := s.cbs ++ [.coverage] } else s
    let s := p.startup.foldl (runCode false) s
    if p.setupFails then (s, false) else ({ s with cbs := s.cbs ++ [.regression] }, true)

/-- A call from the simulator, which runs user code in a trigger. _gpi_triggers.py:40-51. -/
def call (p : Start) (s : St) (cs : List Nat) : St :=
  cs.foldl (runCode p.profile) { s with profiled := if p.profile then some (s.profiled.getD []) else s.profiled }

/-- One function at the end of the simulation, `none` if it raises; `cleanup` is the user code that `_on_sim_end` runs: nothing if
cocotb itself ended the simulation, otherwise what the running test does when it is cancelled. `pstats.Stats` of a profiler that was
never switched on raises TypeError. _profiling.py:26-28, _init.py:161-164, regression.py:1111-1129. -/
def endCb (cleanup : List Nat) (s : St) : Cb → Option St
  | .profile => s.profiled.map fun t => { s with dumped := s.dumped ++ [t] }
  | .coverage => some { s with covering := false, saved := s.saved ++ [s.covered] }
  | .regression => some (cleanup.foldl (runCode false) s)

/-- `_shutdown`: an exception leaves the loop. _shutdown.py:17-21. -/
def simEnd (cleanup : List Nat) : List Cb → St → St
  | [], s => s
  | cb :: cbs, s =>
    match endCb cleanup { s with cbs := cbs } cb with
    | some s' => simEnd cleanup cbs s'
    | none => { s with cbs := cbs }

/-- A whole simulation: start-up, calls from the simulator, its end. -/
def simulate (p : Start) (calls : List (List Nat)) (cleanup : List Nat) : St :=
  let s := calls.foldl (call p) (start p).1
  simEnd cleanup s.cbs s

end Verif.Recorders
