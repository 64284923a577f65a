/-!
# Start and end of a simulation (GpiCommon.cpp, VpiCbHdl.cpp, VhpiCbHdl.cpp, FliCbHdl.cpp)

`gpi_start_of_sim_time`, `gpi_end_of_sim_time`, `gpi_finish`, `gpi_finalize` and `gpi_check_cleanup` of
src/cocotb/share/lib/gpi/GpiCommon.cpp, entered from the handlers of simulator callbacks. The simulator is an arbitrary
environment: it calls back whenever it has control, and in the middle of user code (when a value is written without
delay). User code (start, end and value or time callbacks) is arbitrary: it stops the simulator or not, lets the
simulator call back or not, and returns with or without an error.

Simplifications:
  * `sim_end` of the simulator interface does not call back, and never fails; it removes the simulator's own
    end-of-simulation callback (VpiImpl.cpp:744-746), which is left to the environment.
  * Finalize callbacks do not call back into the simulator.
  * Callback handles are numbers; their life time is the subject of `Verif.GpiCb`.
  * A callback taken from the queue leaves it before it runs, not after.
-/
namespace Verif.Life

/-- What the simulator calls back for: start of simulation, end of simulation, callback `h` of the user.
VpiImpl.cpp:774-786, VpiCbHdl.cpp:138-145. -/
inductive Kind where
  | startup
  | shutdown
  | user (h : Nat)
  deriving DecidableEq

/-- A user of the GPI registers functions for three occasions. GpiCommon.cpp:21-23. -/
structure Cfg where
  /-- Callbacks are queued while another is handled: VPI (VpiCbHdl.cpp:45-68). VHPI and FLI handle them at once. -/
  queued : Bool
  /-- `start_of_sim_time_cbs`. -/
  starts : List Nat
  /-- `end_of_sim_time_cbs`. -/
  ends : List Nat
  /-- `finalize_cbs`. -/
  finals : List Nat

/-- What can be observed. -/
inductive Ev where
  /-- the simulator calls back -/
  | fire (k : Kind)
  /-- the end-of-simulation callback is handled -/
  | ended
  /-- the start-of-simulation callback is handled -/
  | started
  /-- start function `i`, end function `i`, callback function `h` is called -/
  | startCall (i : Nat)
  | endCall (i : Nat)
  | userCall (h : Nat)
  /-- the function called last that has not returned returns; `true`: with an error -/
  | ret (err : Bool)
  /-- user code asks for the end of the simulation (`stop_simulator`) -/
  | stop
  /-- the simulator is told to finish -/
  | simEnd
  /-- all object handles are deleted -/
  | clear
  /-- finalize function `i` is called -/
  | final (i : Nat)
  deriving DecidableEq

/-- What is still to be done on the C++ stack, topmost first. -/
inductive Todo where
  /-- `handle_vpi_callback_(cb_hdl)`. -/
  | cb (k : Kind)
  /-- the loops of `gpi_start_of_sim_time`, `gpi_end_of_sim_time` -/
  | startLoop (l : List Nat)
  | endLoop (l : List Nat)
  /-- `gpi_finish()`. -/
  | finish
  /-- user code is running -/
  | inStart
  | inEnd
  | inUser
  /-- `while (!cb_queue.empty())`. -/
  | loop
  /-- `GPI_TO_SIM`. -/
  | toSim
  deriving DecidableEq

structure St where
  stack : List Todo := []
  /-- `cb_queue`. -/
  queue : List Kind := []
  /-- `reacting`. -/
  reacting : Bool := false
  /-- `gpi_finalizing`. GpiCommon.cpp:68. -/
  finalizing : Bool := false
  log : List Ev := []

def St.add (s : St) (es : List Ev) : St := { s with log := s.log ++ es }

/-- `gpi_finish`. GpiCommon.cpp:118-123. -/
def finish (s : St) : St :=
  if s.finalizing then s else { s with finalizing := true, log := s.log ++ [.simEnd] }

/-- `gpi_check_cleanup` and `gpi_finalize`: finalize functions in reverse. GpiCommon.cpp:125-138. -/
def checkCleanup (c : Cfg) (s : St) : St :=
  if s.finalizing then { s with log := s.log ++ .clear :: c.finals.reverse.map .final } else s

/-- The call of `gpi_end_of_sim_time`. GpiCommon.cpp:108-116. -/
def endOfSim (c : Cfg) (rest : List Todo) : List Todo := .endLoop c.ends :: .finish :: rest

/-- What happens next. -/
inductive Act where
  /-- the simulator calls back -/
  | sim (k : Kind)
  /-- user code stops the simulator -/
  | stop
  /-- user code returns -/
  | ret (err : Bool)
  /-- the library goes on -/
  | tau
  deriving DecidableEq

/-- The simulator calls back. VpiCbHdl.cpp:40-71, VhpiCbHdl.cpp:14-38, FliCbHdl.cpp:14-39. -/
def enter (c : Cfg) (k : Kind) (s : St) : St :=
  let s := s.add [.fire k]
  if c.queued then
    if s.reacting then { s with queue := s.queue ++ [k], stack := .toSim :: s.stack }
    else { s with reacting := true, stack := .cb k :: .loop :: .toSim :: s.stack }
  else { s with stack := .cb k :: .toSim :: s.stack }

/-- The library goes on with the topmost item. -/
def tau (c : Cfg) (s : St) : Option St :=
  match s.stack with
  -- handle_vpi_callback_ → run() → the function of the callback. VpiCbHdl.cpp:18-36, VpiImpl.cpp:774-786
  | .cb .startup :: r => some { s with stack := .startLoop c.starts :: r, log := s.log ++ [.started] }
  | .cb .shutdown :: r => some { s with stack := endOfSim c r, log := s.log ++ [.ended] }
  | .cb (.user h) :: r => some { s with stack := .inUser :: r, log := s.log ++ [.userCall h] }
  -- GpiCommon.cpp:96-105
  | .startLoop [] :: r => some { s with stack := r }
  | .startLoop (i :: l) :: r => some { s with stack := .inStart :: .startLoop l :: r, log := s.log ++ [.startCall i] }
  -- GpiCommon.cpp:109-113
  | .endLoop [] :: r => some { s with stack := r }
  | .endLoop (i :: l) :: r => some { s with stack := .inEnd :: .endLoop l :: r, log := s.log ++ [.endCall i] }
  -- GpiCommon.cpp:115
  | .finish :: r => some (finish { s with stack := r })
  -- VpiCbHdl.cpp:60-64
  | .loop :: r =>
    match s.queue with
    | [] => some { s with reacting := false, stack := r }
    | k :: q => some { s with queue := q, stack := .cb k :: .loop :: r }
  -- gpi_priv.hpp:288-292
  | .toSim :: r => some (checkCleanup c { s with stack := r })
  | _ => none

/-- User code returns; errors of start functions and of callbacks end the simulation. GpiCommon.cpp:100-104,
VpiCbHdl.cpp:26-33. End functions return nothing. -/
def ret (c : Cfg) (err : Bool) (s : St) : Option St :=
  match s.stack with
  | .inStart :: r => some { s with stack := if err then endOfSim c r else r, log := s.log ++ [.ret err] }
  | .inUser :: r => some { s with stack := if err then endOfSim c r else r, log := s.log ++ [.ret err] }
  | .inEnd :: r => if err then none else some { s with stack := r, log := s.log ++ [.ret false] }
  | _ => none

/-- The topmost item is user code. -/
def inUserCode (s : St) : Bool :=
  match s.stack with
  | .inStart :: _ => true
  | .inUser :: _ => true
  | .inEnd :: _ => true
  | _ => false

/-- One action, if it is possible. The simulator calls back when it has control (for anything), or when user code
writes to a signal (for callbacks of the user). `stop_simulator` is bind.cpp:788-796. -/
def exec (c : Cfg) (s : St) : Act → Option St
  | .sim k =>
    if s.stack = [] then some (enter c k s)
    else if inUserCode s then
      match k with
      | .user _ => some (enter c k s)
      | _ => none
    else none
  | .stop => if inUserCode s then some (finish (s.add [.stop])) else none
  | .ret err => ret c err s
  | .tau => tau c s

/-- Actions in a row; `none` if one of them was not possible. -/
def run (c : Cfg) : St → List Act → Option St
  | s, [] => some s
  | s, a :: as => (exec c s a).bind (fun s' => run c s' as)

/-- `s` can come about, from the start of the program. -/
def Reachable (c : Cfg) (s : St) : Prop := ∃ as, run c {} as = some s

/-! ## Loading of libraries -/

abbrev Text := List Char

/-- What the dynamic loader can do. gpi utils `utils_dyn_open`, `utils_dyn_sym`. -/
structure Loader where
  opens : Text → Bool
  sym : Text → Text → Bool

inductive LoadEv where
  | opened (lib : Text)
  | called (lib func : Text)
  /-- the simulator is told to finish (`gpi_finish`) -/
  | finish
  /-- `exit(1)` -/
  | exit
  deriving DecidableEq

/-- `std::string::find(c)` as the text before and after the first `c`. -/
def findFirst (c : Char) : Text → Option (Text × Text)
  | [] => none
  | x :: t => if x = c then some ([], t) else (findFirst c t).map (fun p => (x :: p.1, p.2))

/-- `std::string::rfind(c)` as the text before and after the last `c`. -/
def findLast (c : Char) : Text → Option (Text × Text)
  | [] => none
  | x :: t =>
    match findLast c t with
    | some p => some (x :: p.1, p.2)
    | none => if x = c then some ([], t) else none

theorem findFirst_length {c : Char} : ∀ {t : Text} {a b : Text}, findFirst c t = some (a, b) → b.length < t.length
  | [], _, _, h => by simp [findFirst] at h
  | x :: t, a, b, h => by
    unfold findFirst at h
    split at h
    · simp only [Option.some.injEq, Prod.mk.injEq] at h; simp [← h.2]
    · cases hf : findFirst c t with
      | none => simp [hf] at h
      | some p =>
        obtain ⟨p1, p2⟩ := p
        simp only [hf, Option.map_some, Option.some.injEq, Prod.mk.injEq] at h
        have := findFirst_length hf
        simp [← h.2]; omega

/-- One entry of `GPI_USERS`. The second component: go on with the next entry. GpiCommon.cpp:206-243. -/
def loadUser (L : Loader) (user : Text) : List LoadEv × Bool :=
  match findLast ',' user with
  | none => if L.opens user then ([.opened user], true) else ([.finish], false)
  | some (lib, func) =>
    if L.opens lib then
      if L.sym lib func then ([.opened lib, .called lib func], true) else ([.opened lib, .finish], false)
    else ([.finish], false)

/-- The loop over `GPI_USERS`. GpiCommon.cpp:193-246. -/
def loadUsersGo (L : Loader) (t : Text) : List LoadEv × Bool :=
  match _h : findFirst ';' t with
  | none => loadUser L t
  | some (user, rest) =>
    match loadUser L user with
    | (evs, false) => (evs, false)
    | (evs, true) => (evs ++ (loadUsersGo L rest).1, (loadUsersGo L rest).2)
termination_by t.length
decreasing_by all_goals exact findFirst_length _h

/-- `gpi_load_users`; `none`: the variable is not set. The second component: success. GpiCommon.cpp:185-247. -/
def loadUsers (L : Loader) : Option Text → List LoadEv × Bool
  | none => ([], false)
  | some t => loadUsersGo L t

/-- Entries of `GPI_EXTRA`. GpiCommon.cpp:256-270. -/
def splitExtra (t : Text) : List Text :=
  match _h : findFirst ',' t with
  | none => if t = [] then [] else [t]
  | some (lib, rest) => lib :: splitExtra rest
termination_by t.length
decreasing_by exact findFirst_length _h

/-- `gpi_load_libs`. GpiCommon.cpp:142-183. -/
def loadLibs (L : Loader) : List Text → List LoadEv × Bool
  | [] => ([], true)
  | arg :: rest =>
    match findLast ':' arg with
    | none => ([.exit], false)
    | some (lib, func) =>
      if L.opens lib then
        if L.sym lib func then
          let r := loadLibs L rest
          (.opened lib :: .called lib func :: r.1, r.2)
        else ([.opened lib, .exit], false)
      else ([.exit], false)

/-- `gpi_entry_point`: what is loaded, and whether all of it was. GpiCommon.cpp:249-282. -/
def entryPoint (L : Loader) (extra users : Option Text) : List LoadEv × Bool :=
  match extra with
  | none => loadUsers L users
  | some t =>
    match loadLibs L (splitExtra t) with
    | (evs, false) => (evs, false)
    | (evs, true) => (evs ++ (loadUsers L users).1, (loadUsers L users).2)

/-- `gpi_register_impl`, on the names of the interfaces; the second component: success. GpiCommon.cpp:79-91. -/
def registerImpl (impls : List Text) (name : Text) : List Text × Bool :=
  if impls.any (fun n => n == name) then (impls, false) else (impls ++ [name], true)

end Verif.Life
