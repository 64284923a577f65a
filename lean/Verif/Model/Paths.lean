import Verif.Model.Hierarchy
import Verif.Py.Dec
/-!
# The paths of objects of the design: `handle.py`, `_path` and `_child_path`

The lookups are those of `Model/Hierarchy`, with the path each object is given when it is made, and without the exceptions: a lookup
that raises or finds nothing is `none` and makes no object.
-/
namespace Verif.Paths
open Verif Hier

/-- The design; `pkg` tells which handles have the type GPI_PACKAGE. -/
structure PDesign extends Design where
  pkg : Hdl → Bool

/-- A Python object and its `_path`. handle.py:79-87. -/
structure PObj where
  hdl : Hdl
  cls : Kind
  path : PyStr
  subs : List (Key × Nat)
  discovered : Bool
  deriving DecidableEq, Repr

/-- As `Hier.St`. -/
structure PSt where
  objs : List PObj
  table : List (Hdl × Nat)
  natives : Nat

/-- Nothing has been looked up. -/
def PSt.init : PSt := ⟨[], [], 0⟩

/-- `_make_sim_object`, handle.py:1834-1863, and `SimHandleBase.__init__`, 79-87: without a path the name is used. -/
def make (D : PDesign) (h : Hdl) (path : Option PyStr) (s : PSt) : Option Nat × PSt :=
  match dictGet s.table h with
  | some o => (some o, s)
  | none =>
    if D.kind h = .unsupported then (none, s)
    else (some s.objs.length,
      { s with objs := s.objs ++ [⟨h, D.kind h, path.getD (D.name h), [], false⟩], table := dictSet s.table h s.objs.length })

/-- `self._sub_handles[key] = …` of object `o`. -/
def PSt.setSub (s : PSt) (o : Nat) (k : Key) (c : Nat) : PSt :=
  { s with objs := s.objs.modify o fun x => { x with subs := dictSet x.subs k c } }

/-- `self._discovered = True` of object `o`. -/
def PSt.setDiscovered (s : PSt) (o : Nat) : PSt :=
  { s with objs := s.objs.modify o fun x => { x with discovered := true } }

/-- `HierarchyObject._child_path`, handle.py:503-505, `HierarchyArrayObject._child_path`, 580-581, and the same in
ArrayObject.__getitem__, 1082, and LogicArrayObject.__getitem__, 1398. -/
def childPath (D : PDesign) (x : PObj) : Key → PyStr
  | .name n => x.path ++ (if D.pkg x.hdl then "::".toList else ".".toList) ++ n
  | .idx i => x.path ++ "[".toList ++ intStr i ++ "]".toList

/-- The handle asked for, handle.py:329-340, 508-511, 583-590, 1079, 1395. -/
def ask (D : PDesign) (x : PObj) (k : Key) (d : Disc) (s : PSt) : Option Hdl × PSt :=
  match x.cls, k, d with
  | .module, .name n, .auto => (D.byName x.hdl n, s)
  | .module, .name n, .native => (D.native x.hdl n s.natives, { s with natives := s.natives + 1 })
  | .genArray, .idx i, .auto | .array, .idx i, .auto | .logicArray, .idx i, .auto =>
    (if -(2 ^ 31) ≤ i ∧ i < 2 ^ 31 then D.byIndex x.hdl i else none, s)
  | _, _, _ => (none, s)

/-- `_get`, handle.py:295-327, and the two `__getitem__` that do not use it, 1074-1086 and 1390-1400. -/
def lookup (D : PDesign) (o : Nat) (x : PObj) (k : Key) (d : Disc) (s : PSt) : Option Nat × PSt :=
  match dictGet x.subs k with
  | some c => (some c, s)
  | none =>
    match ask D x k d s with
    | (none, s) => (none, s)
    | (some h, s) =>
      if x.cls = .logicArray then
        (some s.objs.length,
          PSt.setSub { s with objs := s.objs ++ [⟨h, .leaf, childPath D x k, [], false⟩] } o k s.objs.length)
      else
        match make D h (some (childPath D x k)) s with
        | (none, s) => (none, s)
        | (some c, s) => (some c, s.setSub o k c)

/-- Body of the loop of `_discover_all`, handle.py:263-291. -/
def discoverOne (D : PDesign) (o : Nat) (x : PObj) (s : PSt) (thing : Hdl) : PSt :=
  match subKey D.toDesign x.cls x.hdl thing with
  | none => s
  | some k =>
    match make D thing (some (childPath D x k)) s with
    | (none, s) => s
    | (some c, s) => s.setSub o k c

/-- `_discover_all`, handle.py:254-293. -/
def discover (D : PDesign) (o : Nat) (x : PObj) (s : PSt) : PSt :=
  if x.discovered then s else ((D.children x.hdl).foldl (discoverOne D o x) s).setDiscovered o

/-- What a program does: get an object from a raw handle (`cocotb.top`, `cocotb.packages`, _init.py:79-102 and 243-270), look up a
child, list all children. -/
inductive POp where
  | root (h : Hdl)
  | look (o : Nat) (k : Key) (d : Disc)
  | list (o : Nat)

/-- One operation. -/
def step (D : PDesign) (s : PSt) : POp → Option Nat × PSt
  | .root h => make D h none s
  | .look o k d => match s.objs[o]? with
    | none => (none, s)
    | some x => lookup D o x k d s
  | .list o => match s.objs[o]? with
    | none => (none, s)
    | some x => (none, discover D o x s)

/-- The state after operations. -/
def run (D : PDesign) (ops : List POp) (s : PSt) : PSt := ops.foldl (fun s op => (step D s op).2) s

/-- `obj[k1][k2]…`. -/
def follow (D : PDesign) : List Key → Nat → PSt → Option Nat × PSt
  | [], o, s => (some o, s)
  | k :: ks, o, s =>
    match step D s (.look o k .auto) with
    | (none, s) => (none, s)
    | (some c, s) => follow D ks c s

end Verif.Paths
