import Verif.Py.Dict
import Verif.Py.Dec
/-!
# Looking up objects of the design: `handle.py`, hierarchy part

An `Hdl` is a GPI handle (`cocotb.simulator.sim_obj`; equality is pointer equality, bind.cpp:66-126),
an object id is the identity of a Python object. Iterating is modelled as one step: what a program
does between two items of a running iteration comes before or after it. Names with special meaning to
Python or the class (attributes the class itself has) are not looked up in the design and are not
modelled. Log messages and paths are not modelled.
-/
namespace Verif.Hier

abbrev Hdl := Nat

/-- The class `_type2cls` selects for a GPI type, handle.py:1816-1831; `unsupported` is a type that is
not in the table. -/
inductive Kind where
  | module | genArray | array | logicArray | leaf | unsupported
  deriving DecidableEq, Repr

/-- Keys of `_sub_handles`: names for HierarchyObject, indexes for the others. -/
inductive Key where
  | name (s : PyStr)
  | idx (i : Int)
  deriving DecidableEq, Repr

/-- The elaborated design as the GPI shows it. `byName` is `get_handle_by_name` with AUTO discovery;
`native h n t` is the answer to the `t`-th NATIVE lookup (GpiCommon.cpp:452-463 hands out the result
of the implementation without the store of unique handles that all other lookups go through);
`byIndex` is `get_handle_by_index`; `children` is `iterate(OBJECTS)`; `range` is the index range. -/
structure Design where
  kind : Hdl → Kind
  name : Hdl → PyStr
  children : Hdl → List Hdl
  byName : Hdl → PyStr → Option Hdl
  native : Hdl → PyStr → Nat → Option Hdl
  byIndex : Hdl → Int → Option Hdl
  range : Hdl → List Int

/-- GPIDiscovery, handle.py:198-202. -/
inductive Disc where
  | auto | native
  deriving DecidableEq, Repr

/-- A Python object: its handle, class, `_sub_handles` and `_discovered`, handle.py:225-228. -/
structure ObjS where
  hdl : Hdl
  cls : Kind
  subs : List (Key × Nat)
  discovered : Bool
  deriving DecidableEq, Repr

/-- All objects (the id is the position), the singleton table `_handle2obj` (handle.py:1811-1814) and
the number of NATIVE lookups so far. -/
structure St where
  objs : List ObjS
  table : List (Hdl × Nat)
  natives : Nat

/-- Nothing has been looked up. -/
def St.init : St := ⟨[], [], 0⟩

/-- `_make_sim_object`, handle.py:1834-1863. -/
def make (D : Design) (h : Hdl) (s : St) : PyM Nat × St :=
  match dictGet s.table h with
  | some o => (.ok o, s)
  | none =>
    if D.kind h = .unsupported then (.error .notImplemented, s)
    else (.ok s.objs.length,
      { s with objs := s.objs ++ [⟨h, D.kind h, [], false⟩], table := dictSet s.table h s.objs.length })

/-- `self._sub_handles[key] = …` of object `o`. -/
def St.setSub (s : St) (o : Nat) (k : Key) (c : Nat) : St :=
  { s with objs := s.objs.modify o fun x => { x with subs := dictSet x.subs k c } }

/-- `self._discovered = True` of object `o`. -/
def St.setDiscovered (s : St) (o : Nat) : St :=
  { s with objs := s.objs.modify o fun x => { x with discovered := true } }

/-- ASCII `str.lower`, for `re.IGNORECASE`. -/
def lower (s : PyStr) : PyStr := s.map Char.toLower

/-- A string is `pre` followed by digits followed by `post`: `re.match(pre(\d+)post$, s)`; `ci` is
re.IGNORECASE. (`$` also matches before a final newline; object names contain none.) -/
def matchIndex (ci : Bool) (pre post s : PyStr) : Option Nat :=
  let p := s.take pre.length
  let r := s.drop pre.length
  let d := r.take (r.length - post.length)
  let q := r.drop (r.length - post.length)
  if (if ci then lower p = lower pre else p = pre) ∧ q = post then parseDec d else none

/-- HierarchyArrayObject._sub_handle_key, handle.py:559-578: `name__X`, `name(X)` or `name[X]`;
`none` is the ValueError. -/
def genKey (self name : PyStr) : Option Nat :=
  match matchIndex false (self ++ "__".toList) [] name with
  | some i => some i
  | none => match matchIndex true (self ++ "(".toList) ")".toList name with
    | some i => some i
    | none => matchIndex false (self ++ "[".toList) "]".toList name

/-- `_sub_handle_key` of the two hierarchy classes: HierarchyObject 505-506, HierarchyArrayObject
559-578. -/
def subKey (D : Design) (cls : Kind) (parent child : Hdl) : Option Key :=
  match cls with
  | .module => some (.name (D.name child))
  | .genArray => (genKey (D.name parent) (D.name child)).map fun i : Nat => Key.idx (i : Int)
  | _ => none

/-- Body of the loop of `_discover_all`, handle.py:263-291. -/
def discoverOne (D : Design) (o : Nat) (x : ObjS) (s : St) (thing : Hdl) : St :=
  match subKey D x.cls x.hdl thing with
  | none => s
  | some k => match make D thing s with
    | (.ok c, s') => s'.setSub o k c
    | (.error _, s') => s'

/-- `_discover_all`, handle.py:254-293. -/
def discover (D : Design) (o : Nat) (x : ObjS) (s : St) : St :=
  if x.discovered then s
  else ((D.children x.hdl).foldl (discoverOne D o x) s).setDiscovered o

/-- `get_handle_by_index` from Python: the argument is a C `int32_t`, bind.cpp:604-615. -/
def getByIndex (D : Design) (h : Hdl) (i : Int) : PyM (Option Hdl) :=
  if -(2 ^ 31) ≤ i ∧ i < 2 ^ 31 then .ok (D.byIndex h i) else .error .overflowError

/-- `_get_handle_by_key`, handle.py:508-511 and 583-590. A key of the wrong type is refused by the C
function with TypeError. -/
def handleByKey (D : Design) (x : ObjS) (k : Key) (d : Disc) (s : St) : PyM (Option Hdl) × St :=
  match x.cls, k, d with
  | .module, .name n, .auto => (.ok (D.byName x.hdl n), s)
  | .module, .name n, .native => (.ok (D.native x.hdl n s.natives), { s with natives := s.natives + 1 })
  | .module, .idx _, _ => (.error .typeError, s)
  | .genArray, _, .native => (.error .notImplemented, s)
  | .genArray, .idx i, .auto => (getByIndex D x.hdl i, s)
  | .genArray, .name _, .auto => (.error .typeError, s)
  | _, _, _ => (.error .attributeError, s)

/-- `_HierarchyObjectBase._get`, handle.py:295-327. -/
def getSub (D : Design) (o : Nat) (x : ObjS) (k : Key) (d : Disc) (s : St) : PyM (Option Nat) × St :=
  match dictGet x.subs k with
  | some c => (.ok (some c), s)
  | none => match handleByKey D x k d s with
    | (.error e, s') => (.error e, s')
    | (.ok none, s') => (.ok none, s')
    | (.ok (some h), s') => match make D h s' with
      | (.error e, s'') => (.error e, s'')
      | (.ok c, s'') => (.ok (some c), s''.setSub o k c)

/-- `_get` of the two hierarchy classes; the other classes have no such method. -/
def getOp (D : Design) (o : Nat) (x : ObjS) (k : Key) (d : Disc) (s : St) : PyM (Option Nat) × St :=
  match x.cls with
  | .module => getSub D o x k d s
  | .genArray => getSub D o x k d s
  | _ => (.error .attributeError, s)

/-- The error for a child that does not exist: `if handle is None: raise …`. -/
def orRaise (e : PyErr) : PyM (Option Nat) × St → PyM Nat × St
  | (.ok (some c), s) => (.ok c, s)
  | (.ok none, s) => (.error e, s)
  | (.error e', s) => (.error e', s)

/-- ArrayObject.__getitem__, handle.py:1074-1086. -/
def arrayItem (D : Design) (o : Nat) (x : ObjS) (k : Key) (s : St) : PyM Nat × St :=
  match dictGet x.subs k with
  | some c => (.ok c, s)
  | none => match k with
    | .name _ => (.error .typeError, s)
    | .idx i => match getByIndex D x.hdl i with
      | .error e => (.error e, s)
      | .ok none => (.error .indexError, s)
      | .ok (some h) => match make D h s with
        | (.error e, s') => (.error e, s')
        | (.ok c, s') => (.ok c, s'.setSub o k c)

/-- `LogicObject(handle, …)`: not entered in the table of singletons, handle.py:1398. -/
def newLogic (h : Hdl) (s : St) : Nat × St :=
  (s.objs.length, { s with objs := s.objs ++ [⟨h, .leaf, [], false⟩] })

/-- LogicArrayObject.__getitem__, handle.py:1390-1400. -/
def logicItem (D : Design) (o : Nat) (x : ObjS) (k : Key) (s : St) : PyM Nat × St :=
  match dictGet x.subs k with
  | some c => (.ok c, s)
  | none => match k with
    | .name _ => (.error .typeError, s)
    | .idx i => match getByIndex D x.hdl i with
      | .error e => (.error e, s)
      | .ok none => (.error .indexError, s)
      | .ok (some h) => (.ok (newLogic h s).1, (newLogic h s).2.setSub o k (newLogic h s).1)

/-- `obj[key]`: HierarchyObject 463-467, HierarchyArrayObject 591-598, ArrayObject, LogicArrayObject;
other objects are not subscriptable. -/
def item (D : Design) (o : Nat) (x : ObjS) (k : Key) (s : St) : PyM Nat × St :=
  match x.cls with
  | .module => orRaise .keyError (getSub D o x k .auto s)
  | .genArray => orRaise .indexError (getSub D o x k .auto s)
  | .array => arrayItem D o x k s
  | .logicArray => logicItem D o x k s
  | _ => (.error .typeError, s)

/-- `obj.name`, handle.py:454-461. -/
def attr (D : Design) (o : Nat) (x : ObjS) (n : PyStr) (s : St) : PyM Nat × St :=
  match x.cls with
  | .module =>
    if n.head? = some '_' then (.error .attributeError, s)
    else orRaise .attributeError (getSub D o x (.name n) .auto s)
  | _ => (.error .attributeError, s)

/-- `obj.name = value` for a name without leading underscore, handle.py:438-452: always AttributeError
unless looking up the name raises something else. -/
def setAttr (D : Design) (o : Nat) (x : ObjS) (n : PyStr) (s : St) : PyErr × St :=
  match attr D o x n s with
  | (.ok _, s') => (.attributeError, s')
  | (.error .attributeError, s') => (.attributeError, s')
  | (.error e, s') => (e, s')

/-- `self[i] for i in …`. -/
def items (D : Design) (o : Nat) (look : ObjS → Key → St → PyM Nat × St) :
    List Int → St → PyM (List Nat) × St
  | [], s => (.ok [], s)
  | i :: t, s => match s.objs[o]? with
    | none => (.error .typeError, s)
    | some x => match look x (.idx i) s with
      | (.error e, s') => (.error e, s')
      | (.ok c, s') => match items D o look t s' with
        | (.error e, s'') => (.error e, s'')
        | (.ok cs, s'') => (.ok (c :: cs), s'')

/-- The integer keys of a dictionary. -/
def idxKeys (d : List (Key × Nat)) : List Int :=
  d.filterMap fun x => match x.1 with
    | .idx i => some i
    | .name _ => none

/-- `_sub_handles` of an object. -/
def St.subs (s : St) (o : Nat) : List (Key × Nat) :=
  match s.objs[o]? with
  | some x => x.subs
  | none => []

/-- Insertion into a sorted list. -/
def insertInt (i : Int) : List Int → List Int
  | [] => [i]
  | j :: l => if i ≤ j then i :: j :: l else j :: insertInt i l

/-- `sorted` of integers (any sorting algorithm gives this list). -/
def sortInts : List Int → List Int
  | [] => []
  | i :: l => insertInt i (sortInts l)

/-- `list(obj)`: HierarchyObject through `_values`, handle.py:241-247 and 367-368; HierarchyArrayObject
602-605; ArrayObject 1088-1090. (Iterating other objects is not modelled.) -/
def iter (D : Design) (o : Nat) (x : ObjS) (s : St) : PyM (List Nat) × St :=
  match x.cls with
  | .module => (.ok (((discover D o x s).subs o).map (·.2)), discover D o x s)
  | .genArray =>
    items D o (fun x k s => item D o x k s) (sortInts (idxKeys ((discover D o x s).subs o)))
      (discover D o x s)
  | .array => items D o (fun x k s => item D o x k s) (D.range x.hdl) s
  | _ => (.error .typeError, s)

/-- `obj._keys()`, handle.py:230-236. -/
def keys (D : Design) (o : Nat) (x : ObjS) (s : St) : PyM (List Key) × St :=
  match x.cls with
  | .module => (.ok (((discover D o x s).subs o).map (·.1)), discover D o x s)
  | .genArray => (.ok (((discover D o x s).subs o).map (·.1)), discover D o x s)
  | _ => (.error .attributeError, s)

/-- `len(obj)` of the hierarchy classes, handle.py:370-372. (`len` of value objects is not looked up
through children and left out here.) -/
def len (D : Design) (o : Nat) (x : ObjS) (s : St) : PyM Nat × St :=
  match x.cls with
  | .module => (.ok ((discover D o x s).subs o).length, discover D o x s)
  | .genArray => (.ok ((discover D o x s).subs o).length, discover D o x s)
  | _ => (.error .typeError, s)

/-- What a program does with the design. `root` stands for any way of getting an object from a raw
handle (`cocotb.top`, `cocotb.packages`). -/
inductive Op where
  | root (h : Hdl)
  | get (o : Nat) (k : Key) (d : Disc)
  | item (o : Nat) (k : Key)
  | attr (o : Nat) (n : PyStr)
  | setAttr (o : Nat) (n : PyStr)
  | iter (o : Nat)
  | keys (o : Nat)
  | len (o : Nat)

/-- What it gets back. -/
inductive Res where
  | obj (o : Nat)
  | none
  | objs (l : List Nat)
  | keys (l : List Key)
  | nat (n : Nat)
  | err (e : PyErr)
  deriving DecidableEq, Repr

def Res.ofObj : PyM Nat → Res
  | .ok o => .obj o
  | .error e => .err e

def Res.ofGet : PyM (Option Nat) → Res
  | .ok (some o) => .obj o
  | .ok .none => .none
  | .error e => .err e

def Res.ofObjs : PyM (List Nat) → Res
  | .ok l => .objs l
  | .error e => .err e

def Res.ofKeys : PyM (List Key) → Res
  | .ok l => .keys l
  | .error e => .err e

def Res.ofNat : PyM Nat → Res
  | .ok n => .nat n
  | .error e => .err e

/-- The object an operation is applied to. -/
def Op.target : Op → Option Nat
  | .root _ => .none
  | .get o _ _ | .item o _ | .attr o _ | .setAttr o _ | .iter o | .keys o | .len o => some o

/-- One operation on an existing object. -/
def stepOn (D : Design) (o : Nat) (x : ObjS) (op : Op) (s : St) : Res × St :=
  match op with
  | .root h => ((Res.ofObj (make D h s).1), (make D h s).2)
  | .get _ k d => (Res.ofGet (getOp D o x k d s).1, (getOp D o x k d s).2)
  | .item _ k => (Res.ofObj (item D o x k s).1, (item D o x k s).2)
  | .attr _ n => (Res.ofObj (attr D o x n s).1, (attr D o x n s).2)
  | .setAttr _ n => (.err (setAttr D o x n s).1, (setAttr D o x n s).2)
  | .iter _ => (Res.ofObjs (iter D o x s).1, (iter D o x s).2)
  | .keys _ => (Res.ofKeys (keys D o x s).1, (keys D o x s).2)
  | .len _ => (Res.ofNat (len D o x s).1, (len D o x s).2)

/-- One operation; a program can only name objects it has. -/
def step (D : Design) (op : Op) (s : St) : Res × St :=
  match op with
  | .root h => (Res.ofObj (make D h s).1, (make D h s).2)
  | op => match op.target with
    | .none => (.err .typeError, s)
    | some o => match s.objs[o]? with
      | .none => (.err .typeError, s)
      | some x => stepOn D o x op s

/-- A program's operations and their results, and the final state. -/
def run (D : Design) : List Op → St → List Res × St
  | [], s => ([], s)
  | op :: ops, s => ((step D op s).1 :: (run D ops (step D op s).2).1, (run D ops (step D op s).2).2)

end Verif.Hier
