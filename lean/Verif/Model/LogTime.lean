import Verif.Model.SimTime
import Verif.Py.Int
/-!
# The simulation time in log messages (src/cocotb/logging.py, src/cocotb_tools/_pytest/_logging.py)

A record of a message is made, gets the attributes the caller gives and passes through handlers; a handler runs its filters
and either writes the record or keeps it for another handler (as `logging.handlers.MemoryHandler` does), which gets it
later. Times are steps of the simulator. Levels, names of loggers and texts of messages are not modelled.
-/
namespace Verif.LogTime

abbrev Msg := Nat

/-- A record: `created_sim_time` and `sim_time`, none if there is no such attribute; the value is none if the time was not
known. -/
structure Rec where
  msg : Msg
  created : Option (Option Nat) := none
  simTime : Option (Option Nat) := none
  deriving DecidableEq, Repr

/-- `SimTimeContextFilter.filter`, logging.py:235-242; `now` is none if `get_sim_time` raises. -/
def ctxFilter (now : Option Nat) (r : Rec) : Rec := { r with created := some now }

/-- `SimContextFilter.filter` and `_get_sim_time`, _pytest/_logging.py:54-76. -/
def pyFilter (isSim : Bool) (now : Option Nat) (r : Rec) : Rec :=
  if r.simTime.isSome then r else { r with simTime := some (if isSim then now else none) }

/-- The filters of a handler: that of cocotb (logging.py:111-112) and that of the plugin for pytest
(_pytest/_logging.py:118-122). -/
structure Stage where
  ctx : Bool
  py : Bool
  deriving DecidableEq, Repr

/-- The plugin is there or not, whether it runs in the simulator (_pytest/_logging.py:52), and the handlers a record goes
through; the last one writes it. -/
structure Cfg where
  plugin : Bool
  isSim : Bool
  stages : List Stage
  deriving DecidableEq, Repr

/-- The time of the simulation, the records handlers keep, what has been written, and the messages whose call raised. -/
structure St where
  now : Option Nat := none
  wait : List (Nat × Rec) := []
  out : List Rec := []
  raised : List Msg := []
  deriving DecidableEq, Repr

/-- What happens: the time changes, a message is logged with names of extra attributes, handler `k` hands over what it
keeps. -/
inductive Ev where
  | time (t : Option Nat)
  | log (m : Msg) (extra : List String)
  | pass (k : Nat)
  deriving DecidableEq, Repr

/-- Handler `k` gets a record (`logging.Handler.handle`): filters, then it writes or keeps it. -/
def arrive (c : Cfg) (s : St) (k : Nat) (r : Rec) : St :=
  match c.stages[k]? with
  | none => s
  | some g =>
    let r := if g.ctx then ctxFilter s.now r else r
    let r := if c.plugin && g.py then pyFilter c.isSim s.now r else r
    if k + 1 = c.stages.length then { s with out := s.out ++ [r] } else { s with wait := s.wait ++ [(k, r)] }

/-- The attributes the plugin gives to every new record, _pytest/_logging.py:58-65. -/
def pyAttrs : List String := ["sim_time_unit", "sim_time", "sim_time_str"]

/-- One step. The record is made by the factory of the plugin (_pytest/_logging.py:90-99), then `logging.Logger.makeRecord`
sets the extra attributes and raises KeyError if there is one of this name. The values of extra attributes, and attributes
all records have, are not modelled. -/
def step (c : Cfg) (s : St) : Ev → St
  | .time t => { s with now := t }
  | .log m extra =>
    let r : Rec := if c.plugin then pyFilter c.isSim s.now { msg := m } else { msg := m }
    if c.plugin && extra.any pyAttrs.contains then { s with raised := s.raised ++ [m] } else arrive c s 0 r
  | .pass k =>
    (s.wait.filter (·.1 == k)).foldl (fun s e => arrive c s (k + 1) e.2) { s with wait := s.wait.filter (·.1 != k) }

def run (c : Cfg) (evs : List Ev) : St := evs.foldl (step c) {}

/-- `f"{x:.2f}"` of a number that is not negative; Python rounds the exact value of a float. -/
def fmt2 (x : Rat) : PyStr :=
  let n := (SimTime.pyRound (x * 100)).toNat
  Nat.toDigits 10 (n / 100) ++ ['.'] ++ [Nat.digitChar (n % 100 / 10), Nat.digitChar (n % 10)]

/-- `_simtime_fmt`, logging.py:259-264, with the precision of the simulator. -/
def simtimeFmt (prec : Int) (unit : String) (r : Rec) : PyM PyStr :=
  match r.created.join with
  | none => .ok ("-.--".toList ++ unit.toList)
  | some t =>
    match SimTime.timeFromSimSteps prec t unit with
    | .ok x => .ok (fmt2 x ++ unit.toList)
    | .error e => .error e

end Verif.LogTime
