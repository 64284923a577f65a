import Verif.Model.Hierarchy
/-!
# What looking up objects of the design should give
-/
namespace Verif.Spec
open Verif Verif.Hier

/-- The handle the simulator gives, by ordinary lookup, for a key of an object of class `cls`: names
in scopes, indexes (that fit a C `int`) in generate loops and arrays. -/
def answer (D : Design) (cls : Kind) (h : Hdl) : Key → Option Hdl
  | .name n => if cls = .module then D.byName h n else none
  | .idx i =>
    if (cls = .genArray ∨ cls = .array ∨ cls = .logicArray) ∧ -(2 ^ 31) ≤ i ∧ i < 2 ^ 31 then D.byIndex h i
    else none

/-- `c` is one of the objects the simulator lists under `h`, and `k` is the key it goes by. -/
def Listed (D : Design) (cls : Kind) (h : Hdl) (k : Key) (c : Hdl) : Prop :=
  c ∈ D.children h ∧ subKey D cls h c = some k

/-- Looking up a listed child by its key gives that child. -/
def Agree (D : Design) : Prop :=
  ∀ h k c, Listed D (D.kind h) h k c → answer D (D.kind h) h k = some c

/-- Only listed keys are found by lookup, under one spelling each. -/
def OneSpelling (D : Design) (h : Hdl) : Prop :=
  ∀ k c, answer D (D.kind h) h k = some c → Listed D (D.kind h) h k c

/-- The operation looks up key `k` of object `o`. -/
def Asks (op : Op) (o : Nat) (k : Key) : Prop :=
  op = .item o k ∨ (∃ n, k = .name n ∧ op = .attr o n) ∨ ∃ d, op = .get o k d

/-- The operation makes object `o` list all its children. -/
def Lists (op : Op) (o : Nat) : Prop := op = .iter o ∨ op = .keys o ∨ op = .len o

/-- A lookup with GPIDiscovery.NATIVE. -/
def Native (op : Op) : Prop := ∃ o k, op = .get o k .native

end Verif.Spec
