import Verif.Model.Clock
/-!
# Specification of clocks: waveforms, edges, and waiting for edges
-/
namespace Verif.Spec
open Clock

/-- Level of a clock `t` steps after it was started: high for `h` out of every `p` steps. -/
def wave (p h : Nat) (startHigh : Bool) (t : Nat) : Bool :=
  if startHigh then decide (t % p < h) else decide (p - h ≤ t % p)

/-- The signal has value `v` at time `t` if the last drive not after `t` drove `v`. -/
def ValueAt (d : Nat → Drive) (t : Nat) (v : Bool) : Prop :=
  ∃ k, (d k).1 ≤ t ∧ t < (d (k + 1)).1 ∧ (d k).2 = v

/-- At time `t` (not the start) the signal `w` has an edge of the kind `e`. -/
def isEdge (w : Nat → Bool) (e : Edge) (t : Nat) : Bool :=
  match e with
  | .rising => !w (t - 1) && w t
  | .falling => w (t - 1) && !w t
  | .change => w (t - 1) != w t

/-- A moment at which a coroutine runs: at the beginning of a time step (resumed by a timer), or
after the value changes of that step. -/
structure Moment where
  time : Nat
  afterEdge : Bool
  deriving DecidableEq, Repr

/-- First time step whose value changes are still to come at a moment. -/
def Moment.next (m : Moment) : Nat := if m.afterEdge then m.time + 1 else m.time

/-- Number of edges at the times `a ≤ t ≤ b`. -/
def edgesIn (E : Nat → Bool) (a b : Nat) : Nat := ((List.range' a (b + 1 - a)).countP E)

/-- `m'` is the `n`-th edge (n ≥ 1) after `m`: an edge happens then, and it is the `n`-th. -/
def NthEdge (E : Nat → Bool) (n : Nat) (m m' : Moment) : Prop :=
  m'.afterEdge = true ∧ m.next ≤ m'.time ∧ E m'.time = true ∧ edgesIn E m.next m'.time = n

/-- What the simulator does with one await: a timer resumes at the beginning of the step it expires
in, an edge trigger at the next edge, a null trigger at once. -/
def Resumes (E : Nat → Bool) : Await → Moment → Moment → Prop
  | .null, m, m' => m' = m
  | .timer k, m, m' => m' = ⟨m.time + k, false⟩
  | .edge, m, m' => NthEdge E 1 m m'

/-- A sequence of awaits leads from `m` to `m'`. -/
inductive Runs (E : Nat → Bool) : List Await → Moment → Moment → Prop
  | nil (m : Moment) : Runs E [] m m
  | cons {a : Await} {as : List Await} {m m' m'' : Moment} :
      Resumes E a m m' → Runs E as m' m'' → Runs E (a :: as) m m''

end Verif.Spec
