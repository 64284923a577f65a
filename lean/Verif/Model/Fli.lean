import Verif.Model.Vhpi
/-!
# Objects of a VHDL design through the FLI of Questa: `fli/FliImpl.cpp`, `fli/FliObjHdl.cpp`

The simulator is a database `Fli` that answers the queries; it does not change while the simulation runs
and is otherwise arbitrary. Memory management and log messages are not modelled.
-/
namespace Verif.Fli

open Vhpi (GType Dir H idxText beforeLast)

/-- `mti_GetTypeKind` of an element type, with the literals of an enumeration. -/
inductive Elem where
  | enum (lits : List Text)
  | other
  deriving DecidableEq, Repr

/-- `mti_GetTypeKind` with `mti_GetEnumValues`, `mti_TickLeft`, `mti_TickRight`, `mti_TickDir` and
`mti_TickLength`. -/
inductive Ty where
  | enum (lits : List Text)
  | scalar | physical | real
  | array (left right : Int) (dir : Dir) (length : Int) (elem : Elem)
  | record | other
  deriving DecidableEq, Repr

/-- The simulator's answers: whether the type of an object is one of VHDL (`VS_TYPE_IS_VHDL`), a value
(`isTypeValue`), a signal (`isTypeSignal`), a constant or generic (`isValueConst`), a for-generate; its
type; the name of a region; `mti_FindRegion`, `mti_FindSignal`, `mti_FindVar`; the regions below a region,
its constants and signals; the elements of an array or record; names of variables, signals and elements;
the top regions with their full names. -/
structure Fli where
  vhdl : H → Bool
  value : H → Bool
  signal : H → Bool
  const : H → Bool
  forGen : H → Bool
  ty : H → Ty
  regionName : H → Text
  fullName : H → Text
  region : Text → Option H
  sig : Text → Option H
  var : Text → Option H
  lower : H → List H
  subs : H → List H
  tops : List H

/-- `FliObjHdl` and `FliValueObjHdl`: simulator object and what the user can ask for. -/
structure Obj where
  hdl : H
  type : GType
  const : Bool := false
  isVar : Bool := false
  numElems : Int := 0
  indexable : Bool := false
  left : Int := -1
  right : Int := -1
  dir : Dir := .noDir
  name : Text
  full : Text
  deriving DecidableEq, Repr

/-- A literal. -/
def str (s : String) : Text := ofStr s.toList

/-- `isValueLogic`, FliImpl.cpp:33-58. -/
def isLogic (lits : List Text) : Bool :=
  if lits.length = 2 then lits == [str "'0'", str "'1'"]
  else if lits.length = 9 then
    lits == [str "'U'", str "'X'", str "'0'", str "'1'", str "'Z'", str "'W'", str "'L'", str "'H'", str "'-'"]
  else false

/-- `isValueChar`, FliImpl.cpp:60-63. -/
def isChar (lits : List Text) : Bool := decide (lits.length = 256)

/-- `isValueBoolean`, FliImpl.cpp:65-77. -/
def isBoolean (lits : List Text) : Bool :=
  if lits.length = 2 then lits == [str "FALSE", str "TRUE"] else false

/-- The type of a value, FliImpl.cpp:136-203; `none` is a type that cannot be handled. -/
def valueType : Ty → Option GType
  | .enum ls => if isLogic ls then some .logic else if isBoolean ls || isChar ls then some .integer else some .enum
  | .scalar | .physical => some .integer
  | .real => some .real
  | .array _ _ _ _ e =>
    match e with
    | .enum ls => if isLogic ls then some .logicArray else if isChar ls then some .fixedString else some .array
    | .other => some .array
  | .record => some .structure
  | .other => none

/-- The bounds of an array or vector (`FliValueObjHdl::initialise`, `FliLogicObjHdl::initialise`,
`FliStringObjHdl::initialise`, FliObjHdl.cpp:83-95, 258-300, 697-711). The number of elements of a scalar is
not modelled. -/
def withBounds (t : Ty) (o : Obj) : Obj :=
  match t with
  | .array l r d n _ => { o with left := l, right := r, dir := d, numElems := n, indexable := true }
  | _ => o

/-- `FliImpl::create_gpi_obj_from_handle`, FliImpl.cpp:88-226. Arrays (other than of logic or characters)
and records are never constants (lines 184, 192, 200). -/
def createObj (F : Fli) (h : H) (name full : Text) : Option Obj :=
  if !F.vhdl h then none
  else if !F.value h then
    some { hdl := h, type := if name ≠ F.regionName h then .genArray else .module, name := name, full := full,
           numElems := 1, indexable := decide (name ≠ F.regionName h) }
  else match valueType (F.ty h) with
    | none => none
    | some t =>
      some (withBounds (F.ty h)
        { hdl := h, type := t, isVar := !F.signal h,
          const := !F.signal h && F.const h && decide (t ≠ .array) && decide (t ≠ .structure),
          name := name, full := full })

/-- `FliValueObjHdl::get_sub_hdl`, FliObjHdl.cpp:158-183; beyond the simulator's elements the access is
undefined, here `none`. -/
def subHdl (F : Fli) (o : Obj) (i : Int) : Option H :=
  if !o.indexable then none
  else
    let idx := if o.left > o.right then o.left - i else i - o.left
    if idx < 0 ∨ idx ≥ o.numElems then none else (F.subs o.hdl)[idx.toNat]?

/-- `FliImpl::get_child_by_index`, FliImpl.cpp:363-440. -/
def fliByIndex (F : Fli) (i : Int) (p : Obj) : Option Obj :=
  match p.type with
  | .genArray =>
    match F.region (p.full ++ idxText i) with
    | some h => createObj F h (p.name ++ idxText i) (p.full ++ idxText i)
    | none => none
  | .logic | .logicArray | .array | .fixedString =>
    match subHdl F p i with
    | some h => createObj F h (p.name ++ idxText i) (p.full ++ idxText i)
    | none => none
  | _ => none

/-- `compare_generate_labels`, FliImpl.cpp:668-674. -/
def sameLabel (a b : Text) : Bool := beforeLast [40] a == beforeLast [40] b

/-- The full name of a child and what is searched for (region, signal, variable), FliImpl.cpp:265-290;
`none` is a parent that cannot have a child. -/
def childName (p : Obj) (name : Text) : Option (Text × Bool × Bool × Bool) :=
  if p.full = [47] then some (p.full ++ name, true, true, true)
  else if p.type = .module then some (p.full ++ [47] ++ name, true, true, true)
  else if p.type = .structure then some (p.full ++ [46] ++ name, false, !p.isVar, p.isVar)
  else none

/-- What the simulator finds under a full name: region, signal, variable, in this order,
FliImpl.cpp:302-318. -/
def find (F : Fli) (full : Text) (rgn sig var : Bool) : Option H :=
  match if rgn then F.region full else none with
  | some h => some h
  | none =>
    match if sig then F.sig full else none with
    | some h => some h
    | none => if var then F.var full else none

/-- `FliImpl::get_child_by_name`, FliImpl.cpp:257-362; the parent is an object of the FLI. -/
def fliByName (F : Fli) (name : Text) (p : Obj) : Option Obj :=
  match childName p name with
  | none => none
  | some (full, rgn, sig, var) =>
    match find F full rgn sig var with
    | some h => if F.forGen h then createObj F p.hdl name full else createObj F h name full
    | none =>
      if rgn && (F.lower p.hdl).any fun r => F.forGen r && sameLabel (F.regionName r) name then
        createObj F p.hdl name full
      else none

/-- `FliImpl::get_root_handle`, FliImpl.cpp:548-590. -/
def fliRoot (F : Fli) (name : Option Text) : Option Obj :=
  match F.tops.find? fun r => match name with | none => true | some n => n == F.regionName r with
  | some r => createObj F r (F.regionName r) (F.fullName r)
  | none => none

end Verif.Fli
