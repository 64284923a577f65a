import Verif.Model.Pytest
/-!
# What a session should look like

Written in terms of the items only: which pieces of code an item runs, in which phase, and what is reported. Nothing here
mentions the manager's queues or callbacks.
-/
namespace Verif.Pytest

/-- Nothing outside the tests interferes: no hook raises, no code leaves with `Exit` or `KeyboardInterrupt`, the collection
succeeded and the tests are to be run. -/
def Clean (c : Cfg) : Prop :=
  (∀ e, c.raises e = false) ∧ (∀ n, c.exits n = false) ∧ c.collectErrors = false ∧ c.collectOnly = false

/-- The same session without any interference. -/
def Cfg.clean (c : Cfg) : Cfg :=
  { c with raises := fun _ => false, exits := fun _ => false, collectErrors := false, collectOnly := false }

/-- The steps that run when one runs after another until one does not pass. -/
def untilBad : List Step → List Step
  | [] => []
  | st :: sts => if st.outcome = .passed then st :: untilBad sts else [st]

/-- The outcome of steps that ran like that. -/
def result : List Step → Outcome
  | [] => .passed
  | st :: sts => if st.outcome = .passed then result sts else st.outcome

/-- The setup step of a fixture. -/
def Fixture.setup : Fixture → Step
  | .sync st _ _ => st
  | .afun st => st
  | .agen st _ _ _ => st

/-- The teardown step of a fixture, if it has one. -/
def Fixture.teardown? : Fixture → Option Step
  | .sync _ td _ => td
  | .afun _ => none
  | .agen _ _ td _ => some td

/-- It is a plain function. -/
def Fixture.isSync : Fixture → Bool
  | .sync .. => true
  | _ => false

/-- The fixtures an item sets up, in the order their setups are run: the plain ones first. -/
def Item.order (it : Item) : List Fixture :=
  it.fixtures.filter (·.isSync) ++ it.fixtures.filter (fun f => !f.isSync)

/-- The setup steps an item runs. -/
def Item.setupSteps (it : Item) : List Step := untilBad (it.order.map (·.setup))

/-- What the setup phase of an item reports. -/
def Item.setupResult (it : Item) : Outcome := result (it.order.map (·.setup))

/-- What the call phase of an item reports. -/
def Item.callResult (it : Item) : Outcome :=
  match it.body with
  | some b => b.outcome
  | none => it.callHook

/-- The reports of an item, with what its teardown reports: setup, call if the setup passed, and teardown, between the
announcements of its start and its end. -/
def Item.log (it : Item) (i : Nat) (teardown : Outcome) : List Event :=
  [.start i, .report i .setup it.setupResult] ++
    (if it.setupResult = .passed then [.report i .call it.callResult] else []) ++
    [.report i .teardown teardown, .finish i]

/-- The reports of all items, numbered from `i`. -/
def logs (f : Nat → Outcome) : Nat → List Item → List Event
  | _, [] => []
  | i, it :: its => it.log i (f i) ++ logs f (i + 1) its

/-- The reports and announcements in a trace. -/
def log (tr : List Event) : List Event :=
  tr.filter fun
    | .code .. => false
    | _ => true

/-- The end of a session. -/
def ending (error : Bool) : List Event := [.sessionfinish error, .unconfigure, .shutdown]

/-- The log of a complete session. -/
def sessionLog (f : Nat → Outcome) (items : List Item) : List Event :=
  [.sessionstart, .collection] ++ logs f 1 items ++ ending false

/-- The steps run in a phase of an item, in order. -/
def codes (i : Nat) (w : When) (tr : List Event) : List Step :=
  tr.filterMap fun
    | .code j w' st _ => if j = i ∧ w' = w then some st else none
    | _ => none

/-- The steps run in a phase of an item, each with the state of the random number generator it starts with. -/
def rngs (i : Nat) (w : When) (tr : List Event) : List (Step × Rng) :=
  tr.filterMap fun
    | .code j w' st g => if j = i ∧ w' = w then some (st, g) else none
    | _ => none

/-- All teardown steps run, in order. -/
def teardowns (tr : List Event) : List Step :=
  tr.filterMap fun
    | .code _ .teardown st _ => some st
    | _ => none

/-- The session has reached its end: `pytest_sessionfinish` was called. -/
def Over (tr : List Event) : Prop := ∃ b, .sessionfinish b ∈ tr

/-- The fixtures of an item that were set up: their setup ran and passed. -/
def Item.setUp (it : Item) : List Fixture :=
  it.fixtures.filter fun f => decide (f.setup ∈ it.setupSteps) && decide (f.setup.outcome = .passed)

/-- The identities of all setup steps. -/
def setupIds (items : List Item) : List Nat := items.flatMap fun it => it.fixtures.map (·.setup.id)

/-- The tasks started by the setup of a fixture. -/
def Fixture.subs : Fixture → List Sub
  | .agen _ subs _ _ => subs
  | _ => []

/-- No task started by the setup of a fixture has ended by itself when the fixture is torn down. -/
def NoneFinished (items : List Item) : Prop := ∀ it ∈ items, ∀ f ∈ it.fixtures, Sub.finished ∉ f.subs

/-- When a fixture is torn down. -/
def Fixture.till : Fixture → Nat
  | .sync _ _ t => t
  | .afun _ => 0
  | .agen _ _ _ t => t

/-- All fixtures are torn down at the end of the test they were set up for. -/
def FunctionScoped (items : List Item) : Prop := ∀ it ∈ items, ∀ f ∈ it.fixtures, f.till = 0

/-! ## The steps and the random numbers of a session, in full -/

/-- Steps run one after another from a state of the random number generator. -/
def codeEvents (i : Nat) (w : When) (g : Rng) : List Step → List Event
  | [] => []
  | st :: sts => .code i w st g :: codeEvents i w { g with drawn := g.drawn + st.draws } sts

/-- How many random numbers steps draw. -/
def drawnBy (sts : List Step) : Nat := (sts.map (·.draws)).sum

/-- The generator after steps. -/
def Rng.after (g : Rng) (sts : List Step) : Rng := { g with drawn := g.drawn + drawnBy sts }

/-- The fixtures pytest reaches before a plain one fails. -/
def reached : List Fixture → List Fixture
  | [] => []
  | .sync st td till :: fs => if st.outcome = .passed then .sync st td till :: reached fs else []
  | f :: fs => f :: reached fs

/-- The finalizer of a fixture; that of a generator is not armed yet. -/
def Fixture.fin? : Fixture → Option Fin
  | .sync st (some td) till => some ⟨st.id, till, true, false, [], td⟩
  | .sync _ none _ => none
  | .afun _ => none
  | .agen st subs td till => some ⟨st.id, till, false, true, subs, td⟩

/-- The asynchronous setups that have passed. -/
def Item.passedAsync (it : Item) : List Step :=
  if result ((it.fixtures.filter (·.isSync)).map (·.setup)) = .passed then
    (untilBad ((it.fixtures.filter (fun f => !f.isSync)).map (·.setup))).filter (·.outcome = .passed)
  else []

/-- Finalizers of the fixtures with these setup steps become armed. -/
def armAll (sts : List Step) (live : List Fin) : List Fin := sts.foldl (fun l st => arm st.id l) live

/-- The finalizers after the setup of an item, latest first. -/
def Item.fins (it : Item) (live : List Fin) : List Fin :=
  armAll it.passedAsync (((reached it.fixtures).filterMap (·.fin?)).reverse ++ live)

/-- The plain teardown steps among finalizers. -/
def syncTeardowns (fs : List Fin) : List Step := (fs.filter (fun f => f.armed && !f.async)).map (·.step)

/-- The asynchronous teardown steps that get started. -/
def asyncTeardowns (fs : List Fin) : List Step :=
  (fs.filter (fun f => f.armed && f.async && decide (Sub.finished ∉ f.subs))).map (·.step)

/-- What finalizers raise. -/
def finOutcomes (fs : List Fin) : List Outcome :=
  (fs.filter (·.armed)).map fun f =>
    if f.async then (if Sub.finished ∈ f.subs then .failed else .passed) else f.step.outcome

/-- What a teardown phase reports. -/
def teardownResult (fs : List Fin) : Outcome :=
  match (asyncTeardowns fs).getLast? with
  | some t => t.outcome
  | none => combine (finOutcomes fs)

/-- What an item leaves: its events, the finalizers that remain and the state of the random number generator. -/
structure Leaves where
  events : List Event
  live : List Fin
  rng : Rng

/-- An item from its start to its end. -/
def Item.leaves (seed : Nat) (i : Nat) (last : Bool) (it : Item) (live : List Fin) (g : Rng) : Leaves :=
  let g0 : Rng := ⟨some (seed + it.nodeid), 0⟩
  let body := if it.setupResult = .passed then it.body.toList else []
  let all := it.fins live
  let due := all.filter fun f => decide (f.till ≤ i) || last
  let td := syncTeardowns due ++ asyncTeardowns due
  { events :=
      [.start i] ++ codeEvents i .setup g0 it.setupSteps ++ [.report i .setup it.setupResult] ++
      (if it.setupResult = .passed then
        codeEvents i .call (g0.after it.setupSteps) body ++ [.report i .call it.callResult] else []) ++
      codeEvents i .teardown g td ++ [.report i .teardown (teardownResult due), .finish i]
    live := all.filter fun f => !(decide (f.till ≤ i) || last)
    rng := g.after td }

/-- All items, numbered from `i`. -/
def session (seed : Nat) : Nat → List Item → List Fin → Rng → List Event
  | _, [], _, _ => []
  | i, it :: its, live, g =>
    let l := it.leaves seed i its.isEmpty live g
    l.events ++ session seed (i + 1) its l.live l.rng

/-- Everything observed in a complete session. -/
def sessionTrace (seed : Nat) (items : List Item) : List Event :=
  [.sessionstart, .collection] ++ session seed 1 items [] ⟨none, 0⟩ ++ ending false

end Verif.Pytest
