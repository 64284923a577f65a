import Verif.Model.Handle
import Verif.Spec.LogicArray
/-!
# Specification of reading and writing simulator objects
-/
namespace Verif.Spec
open Verif Verif.Hdl

/-- Of a sequence of writes, those not followed by a later write to the same signal, in order. -/
def keepLast : List Call → List Call
  | [] => []
  | c :: cs => if c.ref ∈ cs.map Call.ref then keepLast cs else c :: keepLast cs

/-- What happens, seen from outside: a signal is written, or the simulator enters a phase. -/
inductive Ev where
  | write (c : Call)
  | phase (p : Phase)

/-- What the simulator is told to drive, in order. `p` is the current phase and `later` are all the
deferred writes made since the last read-write phase, in the order they were made.
* Entering the read-write phase drives the last deferred write of each signal.
* Outside the read-write and read-only phases, deposits are deferred and the rest is driven at once.
* In the read-write phase everything is driven at once, in the read-only phase nothing is. -/
def drives : Phase → List Call → List Ev → List Call
  | _, _, [] => []
  | _, later, .phase .readWrite :: t => keepLast later ++ drives .readWrite [] t
  | _, later, .phase p :: t => drives p later t
  | .readWrite, later, .write c :: t => c :: drives .readWrite later t
  | .readOnly, later, .write _ :: t => drives .readOnly later t
  | .other, later, .write c :: t =>
    if c.act = .deposit then drives .other (later ++ [c]) t else c :: drives .other later t

/-- The writes asked for by a sequence of assignments that stops at the first one that fails; the
flag says that none did. -/
def andThen : List (List Call × Bool) → List Call × Bool
  | [] => ([], true)
  | (cs, true) :: t => (cs ++ (andThen t).1, (andThen t).2)
  | (cs, false) :: _ => (cs, false)

/-- The signal writes one assignment asks for, in order: one for an object that is a single signal,
one after the other for the elements of an array, stopping at the first element that is refused. -/
def requested (env : Env) : Ty → Ref → PyVal → SetAct → List Call × Bool
  | .leaf l, ref, v, a => match leafDatum l v with
    | .error _ => ([], false)
    | .ok d => ([⟨ref, a, d⟩], true)
  | .arr lf d rt e, ref, v, a => match v.elems with
    | none => ([], false)
    | some vs =>
      if vs.length ≠ (rangeSeq lf d rt).length then ([], false)
      else andThen ((vs.zip (rangeSeq lf d rt)).map fun p =>
        if env.missing (ref.child p.2) then ([], false) else requested env e (ref.child p.2) p.1 a)

/-- The action with which an argument writes, and the value written when the objects's current value
is `cur`. -/
def intent (cur : PyM PyVal) : Arg → PyM PyVal × SetAct
  | .plain v => (.ok v, .deposit)
  | .deposit v => (.ok v, .deposit)
  | .force v => (.ok v, .force)
  | .freeze => (cur, .force)
  | .release => (cur, .release)
  | .immediate v => (.ok v, .noDelay)
  | .oldImmediate v => (.ok v, .deposit)

/-- The writes asked for by `o.value = arg` (none when the object is constant or its current value
is needed and cannot be read). -/
def requestedBy (env : Env) (sim : Sim) (o : Obj) (arg : Arg) : List Call :=
  if env.isConst o.ref then []
  else match (intent (getValue env sim o.ty o.ref) arg).1 with
    | .error _ => []
    | .ok v => (requested env o.ty o.ref v (intent (getValue env sim o.ty o.ref) arg).2).1

/-- The events of one step of a history. -/
def events (env : Env) : Op → List Ev
  | .set o arg sim => (requestedBy env sim o arg).map .write
  | .setImmediate o arg sim => (requestedBy env sim o arg.old).map .write
  | .react p => [.phase p]

/-- The simulator takes every value it is given and can register callbacks, and cocotb defers
deposits itself (the default). -/
structure Plain (env : Env) : Prop where
  accepts : ∀ ref d, env.refuses ref d = none
  primes : env.primes = true
  defers : env.trust = false

/-! ## Numbers and bits -/

/-- The integers an `n`-bit integer or enum object can hold. -/
def fits (n : Nat) : Sgn → Int → Prop
  | .unsigned, v => 0 ≤ v ∧ v < 2 ^ n
  | .signed, v => -(2 ^ (n - 1)) ≤ v ∧ v < 2 ^ (n - 1)
  | .unknown, v => -(2 ^ (n - 1)) ≤ v ∧ v < 2 ^ n

/-- The integers that can be assigned to an `n`-bit logic array: those with an `n`-bit unsigned or
two's complement representation. -/
def fitsArray (n : Nat) (v : Int) : Prop := -(2 ^ (n - 1)) ≤ v ∧ v < 2 ^ n

/-- The `n` bits of `v` modulo `2 ^ n`, most significant first. -/
def bitsOfInt (n : Nat) (v : Int) : List Logic := bitsBE n (v % 2 ^ n).toNat

/-- The elements a value given to the simulator puts on an `n`-bit signal. An integer is cut to 32
bits (bind.cpp:562) of which the signal takes the low `n`; a string gives one element per
character. -/
def bitsOf (n : Nat) : Datum → Option (List Logic)
  | .int v => some (bitsOfInt n (v % 2 ^ 32))
  | .bin s => if s.length = n then s.mapM Logic.ofLiteralChar else none
  | _ => none

/-- The elements a string stands for: underscores are ignored, letters are taken in either case. -/
def elementsOf (s : PyStr) : Option (List Logic) := (s.filter (· ≠ '_')).mapM Logic.ofLiteralChar

/-! ## Positions in nested arrays -/

/-- The positions of the scalar elements of an object, left to right: `[k₁, k₂, …]` is the `k₂`-th
element of the `k₁`-th element (counting from 0). -/
def positions : Ty → List (List Nat)
  | .leaf _ => [[]]
  | .arr l d r e => (List.range (rangeSeq l d r).length).flatMap fun k => (positions e).map (k :: ·)

/-- The kind of the scalar elements. -/
def scalar : Ty → Leaf
  | .leaf l => l
  | .arr _ _ _ e => scalar e

/-- The element of a nested value at a position. -/
def valueAt : PyVal → List Nat → Option PyVal
  | v, [] => some v
  | v, k :: ks => do
    let vs ← v.elems
    let w ← vs[k]?
    valueAt w ks

/-- The indexes at which the simulator has the element at a position: position `k` of a range is its
left bound plus (`to`) or minus (`downto`) `k`. -/
def indexesAt : Ty → List Nat → List Int
  | .arr l d _ e, k :: ks => rangeNth l d k :: indexesAt e ks
  | _, _ => []

/-- The handle of the element at a position. -/
def handleAt (ref : Ref) (ty : Ty) (p : List Nat) : Ref := ⟨ref.sig, ref.idx ++ indexesAt ty p⟩

/-- The write wanted for the element at a position. -/
def wantedAt (ty : Ty) (ref : Ref) (v : PyVal) (a : SetAct) (p : List Nat) : Option Call := do
  let w ← valueAt v p
  let d ← (leafDatum (scalar ty) w).toOption
  some ⟨handleAt ref ty p, a, d⟩

/-- The value is a list of the right length, of lists of the right length, … -/
def Shaped : Ty → PyVal → Prop
  | .leaf _, _ => True
  | .arr l d r e, v => ∃ vs, v.elems = some vs ∧ vs.length = (rangeSeq l d r).length ∧
      ∀ w ∈ vs, Shaped e w

/-- The simulator finds every element. -/
def Present (env : Env) : Ty → Ref → Prop
  | .leaf _, _ => True
  | .arr l d r e, ref => ∀ i ∈ rangeSeq l d r,
      env.missing (ref.child i) = false ∧ Present env e (ref.child i)

end Verif.Spec
