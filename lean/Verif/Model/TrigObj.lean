import Verif.Py.Basic
/-!
# Trigger objects (src/cocotb/_gpi_triggers.py, src/cocotb/handle.py, src/cocotb/_utils.py)
-/
namespace Verif.TrigObj
open Verif

/-- Classes of simulation objects (handle.py:516, 972, 1113, 1247, 1431, 1485, 1580, 1695, 1774); `thing` is an object that is
no simulation object. -/
inductive Kind where
  | logic
  | logicArray (len : Nat)
  | real
  | enum
  | integer
  | string
  | array
  | hierarchy
  | thing
  deriving DecidableEq, Repr

/-- Classes of edge triggers; `old` is `Edge`. -/
inductive Edge where
  | rising
  | falling
  | change
  | old
  deriving DecidableEq, Repr

/-- Triggers there is one of. -/
inductive Single where
  | readOnly
  | readWrite
  | nextTimeStep
  deriving DecidableEq, Repr

/-- Simulation objects: their classes and `is_const`. -/
structure World where
  kind : Nat → Kind
  const : Nat → Bool

/-- Where a trigger object is kept: in the attribute of a simulation object (`cached_property`), or in the variable `instance` of
`singleton`. -/
inductive Place where
  | attr (e : Edge) (h : Nat)
  | single (s : Single)
  deriving DecidableEq, Repr

/-- A trigger object. -/
inductive Trig where
  | edge (e : Edge) (signal : Nat)
  | single (s : Single)
  | timer
  deriving DecidableEq, Repr

/-- Objects that were made, and where they are kept. The number of an object is its place in the list. -/
structure St where
  made : List Trig
  kept : Place → Option Nat

/-- At the start. -/
def init : St := ⟨[], fun _ => none⟩

/-- An object is made. -/
def make (s : St) (t : Trig) : St × Nat := ({ s with made := s.made ++ [t] }, s.made.length)

/-- The class has the attribute `rising_edge`, `falling_edge`, `value_change` or `_edge`. handle.py:1099, 1106, 1189-1201,
1412-1428. -/
def hasAttr (e : Edge) : Kind → Bool
  | .logic => true
  | .logicArray _ => true
  | .real => e = .change || e = .old
  | .enum => e = .change || e = .old
  | .integer => e = .change || e = .old
  | .string => e = .change || e = .old
  | .array => false
  | .hierarchy => false
  | .thing => false

/-- The body of the property: it may raise TypeError. handle.py:1099-1110, 1189-1201, 1412-1428. -/
def attrFails (W : World) (e : Edge) (h : Nat) : Bool :=
  match W.kind h with
  | .logicArray n => (decide (e = .rising ∨ e = .falling) && decide (n ≠ 1)) || W.const h
  | _ => W.const h

/-- `cached_property`, and `_make`. _gpi_triggers.py:246-251. -/
def getAttr (W : World) (e : Edge) (h : Nat) (s : St) : St × PyM Nat :=
  if !hasAttr e (W.kind h) then (s, .error .attributeError)
  else match s.kept (.attr e h) with
    | some i => (s, .ok i)
    | none =>
      if attrFails W e h then (s, .error .typeError)
      else
        let r := make s (.edge e h)
        ({ r.1 with kept := fun p => if p = .attr e h then some r.2 else s.kept p }, .ok r.2)

/-- `isinstance` in the constructor of the trigger. _gpi_triggers.py:290-297, 323-330, 350-358, 376-384. -/
def accepts (e : Edge) : Kind → Bool
  | .logic => true
  | .logicArray _ => true
  | .real => e = .change || e = .old
  | .enum => e = .change || e = .old
  | .integer => e = .change || e = .old
  | .string => e = .change || e = .old
  | _ => false

/-- `__new__` of a class decorated with `singleton`. _utils.py:187-193. -/
def getSingle (k : Single) (s : St) : St × PyM Nat :=
  match s.kept (.single k) with
  | some i => (s, .ok i)
  | none =>
    let r := make s (.single k)
    ({ r.1 with kept := fun p => if p = .single k then some r.2 else s.kept p }, .ok r.2)

/-- What a user writes. -/
inductive Want where
  /-- `RisingEdge(x)` or `x.rising_edge`, and so on. -/
  | edge (e : Edge) (h : Nat) (constructor : Bool)
  /-- `ReadOnly()` and so on. -/
  | single (s : Single)
  /-- `Timer(...)` with a valid time. -/
  | timer
  deriving DecidableEq, Repr

/-- The object the expression evaluates to. `__init__` does nothing for objects that exist (_gpi_triggers.py:253-254,
_utils.py:187-203). -/
def eval (W : World) (s : St) : Want → St × PyM Nat
  | .edge e h true => if accepts e (W.kind h) then getAttr W e h s else (s, .error .typeError)
  | .edge e h false => getAttr W e h s
  | .single k => getSingle k s
  | .timer => let r := make s .timer; (r.1, .ok r.2)

/-- Expressions one after the other, with what they evaluate to. -/
def evals (W : World) : St → List Want → St × List (Want × PyM Nat)
  | s, [] => (s, [])
  | s, w :: ws =>
    let r := eval W s w
    let rs := evals W r.1 ws
    (rs.1, (w, r.2) :: rs.2)

end Verif.TrigObj
