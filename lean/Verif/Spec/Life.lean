import Verif.Model.Life

/-!
What the start and the end of a simulation should look like, in terms of what can be observed.
-/
namespace Verif.LifeSpec

open Verif.Life

/-- Reasons to end the simulation: a start function or callback of the user failed, the simulator announced the end of
the simulation, user code asked for the end. -/
def isCause : Ev → Bool
  | .ret true => true
  | .ended => true
  | .stop => true
  | _ => false

/-- User code is called. -/
def isCall : Ev → Bool
  | .startCall _ => true
  | .endCall _ => true
  | .userCall _ => true
  | _ => false

/-- User code returns. -/
def isRet : Ev → Bool
  | .ret _ => true
  | _ => false

/-- The simulator calls back. -/
def isFire : Ev → Bool
  | .fire _ => true
  | _ => false

/-- How many functions of the user have been called and have not returned. -/
def inProgress (log : List Ev) : Nat := log.countP isCall - log.countP isRet

/-- The start functions called, and the end functions, in order. -/
def startCalls (log : List Ev) : List Nat := log.filterMap fun | .startCall i => some i | _ => none
def endCalls (log : List Ev) : List Nat := log.filterMap fun | .endCall i => some i | _ => none

/-- The callbacks of the simulator, in the order in which they arrive. -/
def arrivals (log : List Ev) : List Kind := log.filterMap fun | .fire k => some k | _ => none

/-- The callbacks handled, in the order in which this starts. -/
def handled (log : List Ev) : List Kind :=
  log.filterMap fun | .started => some .startup | .ended => some .shutdown | .userCall h => some (.user h) | _ => none

/-- How often the simulation was ended by the simulator or by an error. -/
def ends (log : List Ev) : Nat := log.count .ended + log.count (.ret true)

/-- Each event `e` satisfies `P`, given what happened before it. -/
def Always (P : List Ev → Ev → Prop) (log : List Ev) : Prop := ∀ before e after, log = before ++ e :: after → P before e

/-- The simulator does not call back any more once it was told to finish. -/
def QuietAfterStop (log : List Ev) : Prop := Always (fun before e => isFire e = true → Ev.simEnd ∉ before) log

/-- The simulator calls back only when no user code is running. -/
def NeverNested (log : List Ev) : Prop := Always (fun before e => isFire e = true → inProgress before = 0) log

/-- No user code is running when a finalize function is called, and none is called later. -/
def NothingAfterCleanup (log : List Ev) : Prop :=
  Always (fun before e => (∀ i, e = .final i → inProgress before = 0) ∧ (isCall e = true → ∀ i, Ev.final i ∉ before)) log

/-! ## Libraries -/

/-- An entry of `GPI_USERS`: a library, and a function in it to call or none. -/
structure User where
  lib : Text
  func : Option Text
  deriving DecidableEq

/-- Names that can be written down in `GPI_USERS`. -/
def User.Writable (u : User) : Prop :=
  ';' ∉ u.lib ∧ (match u.func with | none => ',' ∉ u.lib | some f => ';' ∉ f ∧ ',' ∉ f)

/-- How it is written. -/
def User.text (u : User) : Text :=
  match u.func with
  | none => u.lib
  | some f => u.lib ++ ',' :: f

/-- Texts with a separator in between. -/
def joinWith (sep : Char) : List Text → Text
  | [] => []
  | [t] => t
  | t :: ts => t ++ sep :: joinWith sep ts

/-- It can be loaded. -/
def User.Loads (L : Loader) (u : User) : Prop :=
  L.opens u.lib = true ∧ ∀ f, u.func = some f → L.sym u.lib f = true

/-- What loading it does. -/
def User.events (u : User) : List LoadEv :=
  .opened u.lib :: (match u.func with | none => [] | some f => [.called u.lib f])

/-- An entry of `GPI_EXTRA`: a library and its entry function. -/
structure Extra where
  lib : Text
  func : Text
  deriving DecidableEq

def Extra.Writable (x : Extra) : Prop := ',' ∉ x.lib ∧ ',' ∉ x.func ∧ ':' ∉ x.func

def Extra.text (x : Extra) : Text := x.lib ++ ':' :: x.func

def Extra.Loads (L : Loader) (x : Extra) : Prop := L.opens x.lib = true ∧ L.sym x.lib x.func = true

def Extra.events (x : Extra) : List LoadEv := [.opened x.lib, .called x.lib x.func]

/-- The first of each name. -/
def firsts : List Text → List Text → List Text
  | acc, [] => acc
  | acc, n :: ns => if n ∈ acc then firsts acc ns else firsts (acc ++ [n]) ns

end Verif.LifeSpec
