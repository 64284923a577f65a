import Verif.Py.Text
/-!
# Objects of the design through the VPI: `vpi/VpiImpl.cpp`, `vpi/VpiObj.cpp`, `vpi/VpiSignal.cpp`,
`vpi/VpiIterator.cpp`

The simulator is a database `Vpi` that answers the VPI queries; it does not change while the simulation
runs and is otherwise arbitrary. A VPI object has one number (simulators may hand out several handles to
one object; the code never compares handles). Memory management (`vpi_free_object`), log messages and
`check_vpi_error` are not modelled. Where the code turns the result of `vpi_get_str` into a
`std::string` without a check, a missing string is taken to be empty (in C++ it is undefined).
-/
namespace Verif.Gpi

/-- A VPI object. -/
abbrev H := Nat

/-- Object types, the ones VpiImpl.cpp names; `other` is any other type below 1000, `foreign` one from
1000 up (VpiIterator.cpp:138). -/
inductive VType where
  | net | netBit | bitVar | reg | regBit | memoryWord | packedArrayVar | packedArrayNet
  | realNet | realVar
  | interfaceArray | regArray | netArray | genScopeArray | memory | interconnectArray
  | enumNet | enumVar
  | intVar | intNet | integerVar | integerNet | byteVar | byteNet | shortIntVar | shortIntNet
  | longIntVar | longIntNet
  | structVar | structNet | unionVar | unionNet
  | interface | module | port | gate | switch | primTerm | genScope
  | package | stringVar | interconnectNet | parameter | constant
  | other | foreign
  deriving DecidableEq, Repr

/-- One-to-many relations, VpiIterator.cpp:14-86. -/
inductive Rel where
  | net | netArray | reg | regArray | memory | integerVar | realVar | realNet | structVar | structNet
  | variables | namedEvent | namedEventArray | parameter | primitive | primitiveArray | internalScope
  | member | netBit | memoryWord
  deriving DecidableEq, Repr

/-- `vpiConstType`; `other` is any value without a case, including `vpiTimeConst`. -/
inductive ConstType where
  | undefined | dec | binary | oct | hex | int | real | string | other
  deriving DecidableEq, Repr

/-- `gpi_objtype`, gpi.h. -/
inductive GType where
  | unknown | module | array | enum | structure | real | integer | string | genArray | package
  | packedStructure | logic | logicArray
  deriving DecidableEq, Repr

/-- `gpi_range_dir`. -/
inductive Dir where
  | up | down | noDir
  deriving DecidableEq, Repr

/-- The compile-time switches of the VPI library the lookup code depends on: `IUS` (Xcelium) and
`MODELSIM`/`VCS`, whose `vpiRange` iteration always starts with the first index. The table of
sizes for `MODELSIM` in create_gpi_obj_from_handle does not influence the result and is left out. -/
structure Flavor where
  ius : Bool
  rangesFromFirst : Bool

/-- The simulator's answers: `vpi_get(vpiType)` (`none` is vpiUnknown), `vpi_get_str(vpiName)`,
`vpi_get_str(vpiFullName)`, `vpi_handle_by_name(…, NULL)`, `vpi_handle_by_index`, `vpi_iterate` with all
`vpi_scan` results, the same for `vpiModule` and `vpiInstance` on `NULL`, `vpiSize`, `vpiVector`,
`vpiPacked`, `vpiConstType`, the bounds of the `vpiRange` iteration and of the object itself. -/
structure Vpi where
  type : H → Option VType
  name : H → Option Text
  fullName : H → Option Text
  byName : Text → Option H
  byIndex : H → Int → Option H
  iter : Rel → H → Option (List H)
  modules : Option (List H)
  instances : Option (List H)
  size : H → Int
  vector : H → Bool
  packed : H → Bool
  constType : H → ConstType
  ranges : H → Option (List (Int × Int))
  ownRange : H → Option (Int × Int)

/-- `GpiObjHdl`: owner, simulator object and what the user can ask for, gpi_priv.hpp:58-108. The class
of the object is not modelled (it decides the definition name and which value calls exist). -/
structure Obj where
  impl : Nat
  hdl : H
  type : GType
  const : Bool := false
  numElems : Int := 0
  indexable : Bool := false
  left : Int := -1
  right : Int := -1
  dir : Dir := .noDir
  name : Text := ofStr "unknown".toList
  full : Text := ofStr "unknown".toList
  deriving DecidableEq, Repr

/-! ## Text -/

/-- `[`. -/
def lbr : Nat := 91
/-- `.`. -/
def dot : Nat := 46

/-- The parts before and from the last occurrence of a character: `find(rfind(c))`. -/
def cutLast (c : Nat) (t : Text) : Option (Text × Text) :=
  let r := t.reverse
  match r.dropWhile (· != c) with
  | [] => none
  | _ :: b => some (b.reverse, c :: (r.takeWhile (· != c)).reverse)

/-- `a.substr(0, a.rfind("["))`, all of `a` without a bracket, VpiImpl.cpp:765-767. -/
def label (t : Text) : Text :=
  match cutLast lbr t with
  | some (b, _) => b
  | none => t

/-- `compare_generate_labels`, VpiImpl.cpp:762-768. -/
def sameLabel (a b : Text) : Bool := label a == label b

/-- `%d`. -/
def decInt (i : Int) : Text := if i < 0 then 45 :: decText i.natAbs else decText i.natAbs

/-- `snprintf(buff, 14, "[%d]", index)`, VpiImpl.cpp:477-480: at most 13 characters are kept. -/
def idxText (i : Int) : Text := (lbr :: (decInt i ++ [93])).take 13

/-- The end of `t` from the last occurrence of `p` on: `t.rfind(p)`. -/
def rfindSuffix (p : Text) : Text → Option Text
  | [] => if p = [] then some [] else none
  | c :: t =>
    match rfindSuffix p t with
    | some s => some s
    | none => if p.isPrefixOf (c :: t) then some (c :: t) else none

/-! ## Making objects -/

/-- `to_gpi_objtype`, VpiImpl.cpp:81-148. -/
def gpiType (t : VType) (n : Int) (vec : Bool) : GType :=
  match t with
  | .net | .netBit | .bitVar | .reg | .regBit | .memoryWord | .packedArrayVar | .packedArrayNet =>
    if vec || decide (n > 1) then .logicArray else .logic
  | .realNet | .realVar => .real
  | .interfaceArray | .regArray | .netArray | .genScopeArray | .memory => .array
  | .enumNet | .enumVar => .enum
  | .intVar | .intNet | .integerVar | .integerNet | .byteVar | .byteNet | .shortIntVar | .shortIntNet
  | .longIntVar | .longIntNet => .integer
  | .structVar | .structNet | .unionVar | .unionNet => .structure
  | .interface | .module | .port | .gate | .switch | .primTerm | .genScope => .module
  | .package => .package
  | .stringVar => .string
  | .interconnectNet | .interconnectArray | .parameter | .constant | .other | .foreign => .unknown

/-- `const_type_to_gpi_objtype`, VpiImpl.cpp:150-180. -/
def constGType : ConstType → GType
  | .real => .real
  | .string => .string
  | _ => .logicArray

/-- `VpiSignalObjHdl::initialise`, VpiSignal.cpp:15-91; `none` is the error return (no bounds in the
first range), which leaves the object without its names. -/
def initSignal (V : Vpi) (t : VType) (o : Obj) (name full : Text) : Option Obj :=
  let n := V.size o.hdl
  let finish (o : Obj) : Option Obj :=
    some { o with dir := if o.left > o.right then .down else .up, name := name, full := full }
  if t = .intVar ∨ t = .integerVar ∨ t = .integerNet then finish { o with numElems := n }
  else if t = .realNet then finish { o with numElems := 1 }
  else if o.type = .string ∨ t = .constant ∨ t = .parameter then
    finish { o with numElems := n, indexable := false, left := 0, right := n - 1 }
  else if o.type = .logic ∨ o.type = .logicArray then
    if V.vector o.hdl then
      match V.ranges o.hdl with
      | some ((l, r) :: _) => finish { o with numElems := n, indexable := true, left := l, right := r }
      | some [] => none
      | none =>
        match V.ownRange o.hdl with
        | some (l, r) => finish { o with numElems := n, indexable := true, left := l, right := r }
        | none => finish { o with numElems := n, indexable := true, left := 0, right := n - 1 }
    else finish { o with numElems := n, indexable := false, left := 0, right := n - 1 }
  else finish { o with numElems := n }

/-- The number of indices already in the name of a pseudo-handle, VpiObj.cpp:18-37; `none` is the error
return. -/
def rangeIdx (hdlName name : Text) : Option Nat :=
  if hdlName.length < name.length then (rfindSuffix hdlName name).map (·.count lbr) else some 0

/-- `VpiArrayObjHdl::initialise`, VpiObj.cpp:12-94. -/
def initArray (c : Flavor) (V : Vpi) (o : Obj) (name full : Text) : Option Obj :=
  match rangeIdx ((V.name o.hdl).getD []) name with
  | none => none
  | some k =>
    let bounds : Option (Int × Int) :=
      match V.ranges o.hdl with
      | some rs => if c.rangesFromFirst then rs[k]? else rs[0]?
      | none => if k = 0 then some ((V.ownRange o.hdl).getD (0, 0)) else none
    match bounds with
    | none => none
    | some (l, r) =>
      some { o with
        indexable := true, left := l, right := r
        numElems := if l > r then l - r + 1 else r - l + 1
        dir := if l > r then .down else .up
        name := name, full := full }

/-- `VpiImpl::create_gpi_obj_from_handle`, VpiImpl.cpp:182-335. The result of `initialise` is not looked
at (line 329): an object whose `initialise` failed is handed out with the names it was constructed
with. -/
def createObj (c : Flavor) (V : Vpi) (impl : Nat) (h : H) (name full : Text) : Option Obj :=
  match V.type h with
  | none => none
  | some t =>
    match t with
    | .net | .netBit | .bitVar | .reg | .regBit | .enumNet | .enumVar | .intVar | .intNet | .integerVar
    | .integerNet | .byteVar | .byteNet | .shortIntVar | .shortIntNet | .longIntVar | .longIntNet
    | .packedArrayVar | .packedArrayNet | .realVar | .realNet | .stringVar | .memoryWord
    | .interconnectNet =>
      let o : Obj := { impl := impl, hdl := h, type := gpiType t (V.size h) (V.vector h) }
      some ((initSignal V t o name full).getD o)
    | .parameter | .constant =>
      let o : Obj := { impl := impl, hdl := h, type := constGType (V.constType h), const := true }
      some ((initSignal V t o name full).getD o)
    | .regArray | .netArray | .interfaceArray | .memory | .interconnectArray =>
      let o : Obj := { impl := impl, hdl := h, type := gpiType t (V.size h) (V.vector h) }
      some ((initArray c V o name full).getD o)
    | .structVar | .structNet | .unionVar | .unionNet =>
      if V.packed h then
        let o : Obj := { impl := impl, hdl := h, type := .packedStructure }
        some ((initSignal V t o name full).getD o)
      else
        some { impl := impl, hdl := h, type := gpiType t (V.size h) (V.vector h), name := name, full := full }
    | .module | .interface | .port | .gate | .switch | .primTerm | .genScope | .genScopeArray =>
      if (V.name h).getD [] ≠ name then
        some { impl := impl, hdl := h, type := .genArray, name := name, full := full }
      else
        some { impl := impl, hdl := h, type := gpiType t 0 false, name := name, full := full }
    | .package | .other | .foreign => none

/-! ## Lookup -/

/-- `get_type_delimiter`, VpiImpl.cpp:770-772. -/
def delim (o : Obj) : Text := if o.type = .package then [] else [dot]

/-- A scope that can be an element of a generate block, VpiImpl.cpp:428-429. -/
def isRegion (V : Vpi) (h : H) : Bool := V.type h == some .genScope || V.type h == some .module

/-- The simulator object a name stands for, VpiImpl.cpp:367-466: the object with the full name, or the
parent itself as pseudo-region for a generate block that has no object of its own. -/
def resolveName (c : Flavor) (V : Vpi) (name : Text) (p : Obj) : Option H :=
  let scopes := (V.iter .internalScope p.hdl).getD []
  let found := V.byName (p.full ++ delim p ++ name)
  let h :=
    if c.ius then
      match found with
      | some h =>
        if V.type h = some .genScope ∧ scopes.any (fun r => sameLabel ((V.name r).getD []) name) = false
        then none else some h
      | none => none
    else
      match found with
      | some h => some h
      | none =>
        if scopes.any (fun r => isRegion V r && sameLabel ((V.name r).getD []) name) then some p.hdl
        else none
  h.map fun h => if V.type h = some .genScopeArray then p.hdl else h

/-- `VpiImpl::get_child_by_name`, VpiImpl.cpp:361-476. -/
def vpiByName (c : Flavor) (V : Vpi) (impl : Nat) (name : Text) (p : Obj) : Option Obj :=
  match resolveName c V name p with
  | none => none
  | some h => createObj c V impl h name (p.full ++ delim p ++ name)

/-- The number of `]` in the pseudo-indices of a name, VpiImpl.cpp:538-555. -/
def usedIndices (hdlName name : Text) : Nat :=
  if hdlName.length < name.length then (name.drop hdlName.length).count 93 else 0

/-- The simulator object an index stands for, VpiImpl.cpp:481-580. -/
def resolveIndex (V : Vpi) (i : Int) (p : Obj) : Option H :=
  match p.type with
  | .genArray => V.byName (p.full ++ idxText i)
  | .logic | .logicArray | .array | .string =>
    match V.byIndex p.hdl i with
    | some h => some h
    | none =>
      let up := decide (p.dir = .up)
      if (up && (decide (i < p.left) || decide (i > p.right))) ||
          (!up && (decide (i > p.left) || decide (i < p.right))) then none
      else
        let total : Int := match V.ranges p.hdl with
          | some rs => rs.length
          | none => 1
        let left := total - usedIndices ((V.name p.hdl).getD []) p.name
        match V.byName (p.full ++ idxText i) with
        | some h => some h
        | none => if left > 1 then some p.hdl else none
  | _ => none

/-- `VpiImpl::get_child_by_index`, VpiImpl.cpp:472-600. -/
def vpiByIndex (c : Flavor) (V : Vpi) (impl : Nat) (i : Int) (p : Obj) : Option Obj :=
  match resolveIndex V i p with
  | none => none
  | some h => createObj c V impl h (p.name ++ idxText i) (p.full ++ idxText i)

/-- `VpiImpl::get_child_from_handle`, VpiImpl.cpp:337-359. -/
def vpiFromHandle (c : Flavor) (V : Vpi) (impl : Nat) (raw : H) (p : Obj) : Option Obj :=
  match V.name raw with
  | none => none
  | some name => createObj c V impl raw name (p.full ++ delim p ++ name)

/-- A top level object that is a module, VpiImpl.cpp:614. -/
def isModule (V : Vpi) (h : H) : Bool :=
  match V.type h with
  | some t => gpiType t 1 false == .module
  | none => false

/-- `VpiImpl::get_root_handle`, VpiImpl.cpp:600-660. Without a name the first module whose full name does
not begin with a backslash; a module without a full name is taken to have an empty one. -/
def vpiRoot (V : Vpi) (impl : Nat) (name : Option Text) : Option Obj :=
  let ok (h : H) : Bool :=
    isModule V h &&
      (match name with
        | none => ((V.fullName h).getD []).head? != some 92
        | some n => n == (V.fullName h).getD [])
  match (V.modules.getD []).find? ok with
  | none => none
  | some h =>
    let n := (V.fullName h).getD []
    some { impl := impl, hdl := h, type := .module, name := n, full := n }

/-! ## Iteration -/

/-- What `next_handle` gives to `gpi_next`, gpi_priv.hpp:186-200: an object, a name without an object,
something without a name, or a raw handle of another implementation; `raises` is a C++ exception nobody
catches. -/
inductive Item where
  | native (o : Obj)
  | notNative (name : Text)
  | nativeNoName
  | notNativeNoName (raw : H)
  | raises
  deriving DecidableEq, Repr

/-- The result of `iterate_handle`: `NULL`, an iterator with everything it will give, or undefined
behaviour. -/
inductive Iter where
  | null
  | items (l : List Item)
  | undef
  deriving DecidableEq, Repr

/-- `gpi_iterator_sel`. -/
inductive Sel where
  | objects | drivers | loads | packages | roots
  deriving DecidableEq, Repr

/-- `instance_options`, VpiIterator.cpp:18-23. -/
def instanceRels : List Rel := [.net, .netArray, .reg, .regArray]

/-- `module_options`, VpiIterator.cpp:24-46. -/
def moduleRels : List Rel :=
  instanceRels ++ [.memory, .integerVar, .realVar, .realNet, .structVar, .structNet, .variables,
    .namedEvent, .namedEventArray, .parameter, .primitive, .primitiveArray, .internalScope]

/-- `struct_options`, VpiIterator.cpp:48-55. -/
def structRels (c : Flavor) : List Rel :=
  [.net] ++ (if c.ius then [] else [.netArray]) ++
    [.reg, .regArray, .memory, .parameter, .primitive, .primitiveArray, .member]

/-- `iterate_over`, VpiIterator.cpp:57-86. -/
def iterateOver (c : Flavor) : VType → Option (List Rel)
  | .module => some moduleRels
  | .interface => some instanceRels
  | .genScope => some moduleRels
  | .structVar => some (structRels c)
  | .structNet => some (structRels c)
  | .net => some [.netBit]
  | .netArray => some [.net]
  | .regArray => some [.reg]
  | .memory => some [.memoryWord]
  | .package => some [.parameter]
  | _ => none

/-- The name and object of a scanned object, VpiIterator.cpp:344-362: for an element of a generate block
the pseudo-region of the block stands in. -/
def scanned (V : Vpi) (p : Obj) (rel : Rel) (h : H) (cname : Text) : Text × H :=
  if rel = .internalScope ∧ p.type ≠ .genArray ∧ V.type h = some .genScope then
    match cutLast lbr cname with
    | some (b, _) => if b = [] then (cname, h) else (b, p.hdl)
    | none => (cname, h)
  else (cname, h)

/-- The names under which a scanned object is made, VpiIterator.cpp:368-392. -/
def scannedNames (p : Obj) (name : Text) : Text × Text :=
  if p.type = .genArray then
    match cutLast lbr name with
    | some (_, ix) => (name, p.full ++ ix)
    | none => (name, p.full ++ [dot] ++ name)
  else if p.type = .structure then
    match cutLast dot name with
    | some (_, m) => (m.drop 1, p.full ++ m)
    | none => (name, p.full ++ [dot] ++ name)
  else (name, p.full ++ delim p ++ name)

/-- What `VpiIterator::next_handle` makes of one scanned object, VpiIterator.cpp:323-404. -/
def scanItem (c : Flavor) (V : Vpi) (impl : Nat) (p : Obj) (rel : Rel) (h : H) : Item :=
  match V.name h with
  | none => if V.type h = some .foreign then .notNativeNoName h else .nativeNoName
  | some cname =>
    let (name, h') := scanned V p rel h cname
    let (name', full) := scannedNames p name
    match createObj c V impl h' name' full with
    | some o => .native o
    | none => .notNative name'

/-- The objects a `VpiIterator` goes through with the relation they come from, VpiIterator.cpp:89-131
and 264-321; `none`: the constructor reads an uninitialised variable (no relation is tried at all), what
happens then is undefined. -/
def scanAll (c : Flavor) (V : Vpi) (p : Obj) : Option (List (Rel × H)) :=
  match (V.type p.hdl).bind (iterateOver c) with
  | none => some []
  | some rels =>
    if p.type = .genArray then
      if .internalScope ∈ rels then
        some ((((V.iter .internalScope p.hdl).getD []).filter
          fun h => isRegion V h && sameLabel ((V.name h).getD []) p.name).map fun h => (.internalScope, h))
      else none
    else some (rels.flatMap fun rel => ((V.iter rel p.hdl).getD []).map fun h => (rel, h))

/-- `VpiRootIterator`, VpiIterator.cpp:175-206. -/
def rootItems (V : Vpi) (impl : Nat) : List Item :=
  ((V.modules.getD []).filter fun h => isModule V h).filterMap fun h =>
    (V.fullName h).map fun n => Item.native { impl := impl, hdl := h, type := .module, name := n, full := n }

/-- `::` at the end of a package name, VpiIterator.cpp:240-245; `none`: for a name of less than two
characters `compare` is called with a position behind the end and throws `std::out_of_range`. -/
def pkgFull (n : Text) : Option Text :=
  if n.length < 2 then none
  else if n.drop (n.length - 2) = [58, 58] then some n else some (n ++ [58, 58])

/-- `VpiPackageIterator`, VpiIterator.cpp:208-250. -/
def packageItems (V : Vpi) (impl : Nat) : List Item :=
  ((V.instances.getD []).filter fun h => V.type h == some .package).filterMap fun h =>
    (V.name h).map fun n =>
      match pkgFull ((V.fullName h).getD []) with
      | some f => Item.native { impl := impl, hdl := h, type := .package, name := n, full := f }
      | none => .raises

/-- `VpiImpl::iterate_handle` and all `next_handle` calls, VpiImpl.cpp:661-686; drivers and loads are not
modelled. -/
def vpiItems (c : Flavor) (V : Vpi) (impl : Nat) (p : Option Obj) (sel : Sel) : Iter :=
  match sel, p with
  | .objects, some p =>
    match scanAll c V p with
    | some l => .items (l.map fun x => scanItem c V impl p x.1 x.2)
    | none => .undef
  | .roots, _ => .items (rootItems V impl)
  | .packages, _ => .items (packageItems V impl)
  | _, _ => .null

end Verif.Gpi
