import Verif.Model.Vpi
import Verif.Py.Dict
/-!
# Handles of the GPI: `gpi/GpiCommon.cpp`, lookup part

A handle is a number (the address of a `GpiObjHdl`), never used twice; a deleted object keeps its number.
An implementation (VPI, VHPI, FLI) is a set of answers that do not change during the simulation.
`exec` gives `none` where the C++ code does something undefined: using a deleted handle or iterator,
calling a method on a null pointer, an exception that leaves the library. The registration of
implementations at load time is not modelled: they are a fixed list, an implementation is its position.
-/
namespace Verif.Gpi

/-- `GpiImplInterface`, lookup part, gpi_priv.hpp:222-262. -/
structure Impl where
  byName : Text → Obj → Option Obj
  byIndex : Int → Obj → Option Obj
  fromHandle : H → Obj → Option Obj
  root : Option Text → Option Obj
  iterate : Option Obj → Sel → Iter

/-- The VPI implementation, registered as number `k`. -/
def vpiImpl (c : Flavor) (V : Vpi) (k : Nat) : Impl where
  byName := vpiByName c V k
  byIndex := vpiByIndex c V k
  fromHandle := vpiFromHandle c V k
  root := vpiRoot V k
  iterate := vpiItems c V k

/-- `GpiIterator`: its implementation, the object it was made for and what it has not given yet. -/
structure IterS where
  impl : Nat
  parent : Option Nat
  rest : List Item
  deriving DecidableEq, Repr

/-- All objects ever made, the deleted ones, `handle_map`, and all iterators (`none`: deleted). -/
structure St where
  objs : List Obj
  freed : List Nat
  map : List (Text × Nat)
  iters : List (Option IterS)
  deriving DecidableEq, Repr

def St.init : St := ⟨[], [], [], []⟩

/-- `gpi_discovery`. -/
inductive Disc where
  | auto | native
  deriving DecidableEq, Repr

/-- The calls of the `simulator` module that give objects, and `gpi_finalize`. -/
inductive Op where
  | root (name : Option Text)
  | byName (p : Nat) (name : Text) (d : Disc)
  | byIndex (p : Nat) (i : Int)
  | iterate (p : Option Nat) (sel : Sel)
  | next (k : Nat)
  | finalize
  deriving DecidableEq, Repr

/-- `handle` an object, `iter` an iterator, `none` is `None` or the end of an iteration, `overflow` is
OverflowError. -/
inductive Res where
  | handle (r : Nat)
  | iter (k : Nat)
  | none
  | overflow
  deriving DecidableEq, Repr

/-- A live object. -/
def St.get (s : St) (r : Nat) : Option Obj := if r ∈ s.freed then none else s.objs[r]?

/-- `check_and_store`, GpiCommon.cpp:27-45: the new object is kept if its full name is new, deleted
otherwise. -/
def store (s : St) (o : Obj) : St × Nat :=
  let id := s.objs.length
  let s1 := { s with objs := s.objs ++ [o] }
  match dictGet s.map o.full with
  | some old => ({ s1 with freed := id :: s.freed }, old)
  | none => ({ s1 with map := dictSet s.map o.full id }, id)

/-- `CHECK_AND_STORE` on an object that may be missing. -/
def storeOpt (s : St) : Option Obj → St × Option Nat
  | none => (s, none)
  | some o => ((store s o).1, some (store s o).2)

/-- The implementations `gpi_get_child_by_name` asks, in order, GpiCommon.cpp:362-405. -/
def searchOrder (n own : Nat) (skip : Option Nat) : List Nat :=
  (if skip = some own then [] else [own]) ++
    (List.range n).filter fun k => decide (skip ≠ some k) && decide (k ≠ own)

/-- `gpi_get_child_by_name`, GpiCommon.cpp:362-408. -/
def childByName (D : List Impl) (p : Obj) (name : Text) (skip : Option Nat) : Option Obj :=
  (searchOrder D.length p.impl skip).findSome? fun k => (D[k]?).bind fun I => I.byName name p

/-- `gpi_get_child_from_handle`, GpiCommon.cpp:410-438. -/
def childFromHandle (D : List Impl) (p : Obj) (raw : H) (skip : Nat) : Option Obj :=
  ((List.range D.length).filter fun k => decide (k ≠ skip)).findSome? fun k =>
    (D[k]?).bind fun I => I.fromHandle raw p

/-- `gpi_next`, GpiCommon.cpp:520-563, from the items that are left: the new rest and the object, the end
of the iteration (`some none`), or undefined (`none`). -/
def nextLoop (D : List Impl) (p : Option Obj) (impl : Nat) : List Item → Option (Option (List Item × Obj))
  | [] => some none
  | .native o :: rest => some (some (rest, o))
  | .nativeNoName :: rest => nextLoop D p impl rest
  | .notNative name :: rest =>
    match p with
    | none => none
    | some p =>
      match childByName D p name (some impl) with
      | some o => some (some (rest, o))
      | none => nextLoop D (some p) impl rest
  | .notNativeNoName raw :: rest =>
    match p with
    | none => none
    | some p =>
      match childFromHandle D p raw impl with
      | some o => some (some (rest, o))
      | none => nextLoop D (some p) impl rest
  | .raises :: _ => none

/-- The first implementation with an iterator, GpiCommon.cpp:498-510. -/
def firstIter (D : List Impl) (sel : Sel) : Option (Nat × Iter) :=
  (List.range D.length).findSome? fun k =>
    match D[k]? with
    | some I => if I.iterate none sel = .null then none else some (k, I.iterate none sel)
    | none => none

/-- A new iterator. -/
def newIter (s : St) (impl : Nat) (parent : Option Nat) : Iter → Option (St × Res)
  | .null => some (s, .none)
  | .undef => none
  | .items l => some ({ s with iters := s.iters ++ [some ⟨impl, parent, l⟩] }, .iter s.iters.length)

def toRes (x : St × Option Nat) : St × Res :=
  (x.1, match x.2 with | some r => .handle r | none => .none)

/-- Whether `PyArg_ParseTuple("i")` accepts a number, bind.cpp:613. -/
def isInt32 (i : Int) : Bool := decide (-2147483648 ≤ i) && decide (i ≤ 2147483647)

/-- One call; `none` is undefined behaviour. -/
def exec (D : List Impl) (s : St) : Op → Option (St × Res)
  -- gpi_get_root_handle, GpiCommon.cpp:335-360
  | .root n =>
    some (toRes (storeOpt s ((List.range D.length).findSome? fun k => (D[k]?).bind fun I => I.root n)))
  -- gpi_get_handle_by_name, GpiCommon.cpp:440-467; a NATIVE result does not go through the store
  | .byName p n d =>
    match s.get p with
    | none => none
    | some po =>
      match d with
      | .auto => some (toRes (storeOpt s (childByName D po n none)))
      | .native =>
        match (D[po.impl]?).bind fun I => I.byName n po with
        | some o => some ({ s with objs := s.objs ++ [o] }, .handle s.objs.length)
        | none => some (s, .none)
  -- gpi_get_handle_by_index, GpiCommon.cpp:469-490
  | .byIndex p i =>
    match s.get p with
    | none => none
    | some po =>
      if isInt32 i then some (toRes (storeOpt s ((D[po.impl]?).bind fun I => I.byIndex i po)))
      else some (s, .overflow)
  -- gpi_iterate, GpiCommon.cpp:492-518
  | .iterate p sel =>
    if sel = .packages ∨ sel = .roots then
      match p with
      | some _ => some (s, .none)
      | none =>
        match firstIter D sel with
        | some (k, it) => newIter s k none it
        | none => some (s, .none)
    else
      match p.bind s.get with
      | none => none
      | some po =>
        match D[po.impl]? with
        | some I => newIter s po.impl p (I.iterate (some po) sel)
        | none => none
  -- gpi_next; at the end the iterator is deleted
  | .next k =>
    match s.iters[k]? with
    | some (some it) =>
      match nextLoop D (it.parent.bind s.get) it.impl it.rest with
      | none => none
      | some none => some ({ s with iters := s.iters.set k none }, .none)
      | some (some (rest, o)) =>
        let (s1, r) := store s o
        some ({ s1 with iters := s1.iters.set k (some { it with rest := rest }) }, .handle r)
    | _ => none
  -- CLEAR_STORE, GpiCommon.cpp:49-57
  | .finalize => some ({ s with freed := s.map.map (·.2) ++ s.freed, map := [] }, .none)

/-- A history of calls with their results; `none` if something undefined happened. -/
def run (D : List Impl) : St → List Op → Option (St × List (Op × Res))
  | s, [] => some (s, [])
  | s, op :: ops =>
    match exec D s op with
    | none => none
    | some (s1, r) =>
      match run D s1 ops with
      | none => none
      | some (s2, outs) => some (s2, (op, r) :: outs)

end Verif.Gpi
