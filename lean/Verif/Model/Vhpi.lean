import Verif.Model.Vpi
/-!
# Objects of a VHDL design through the VHPI: `vhpi/VhpiImpl.cpp`, `vhpi/VhpiObj.cpp`,
`vhpi/VhpiSignal.cpp`, `vhpi/VhpiIterator.cpp`

The simulator is a database `Vhpi` that answers the VHPI queries; it does not change while the simulation
runs and is otherwise arbitrary. A VHPI object has one number. The base type of an object is the answer to
`vhpiBaseType`, or to `vhpiBaseType` of its `vhpiSubtype` (the same fallback is written five times in the
code). Memory management, log messages and `check_vhpi_error` are not modelled; integers do not overflow.
-/
namespace Verif.Vhpi

open Gpi (cutLast decInt rfindSuffix)

/-- A VHPI object. -/
abbrev H := Nat

/-- `vhpiKindP`; `other` is any other kind. -/
inductive Kind where
  | verilog | rootInst | ifGenerate | forGenerate | blockStmt | compInst
  | process | simpleAssign | condAssign | selectAssign
  | constDecl | genericDecl | sigDecl | varDecl | portDecl | selectedName | indexedName | other
  deriving DecidableEq, Repr

/-- The type of the elements of an array: its name and literals if it is an enumeration. -/
inductive Elem where
  | enum (name : Text) (lits : List Text)
  | other
  deriving DecidableEq, Repr

/-- The base type; `elem` is `none` if the simulator does not tell the element type. -/
inductive Ty where
  | enum (name : Text) (lits : List Text)
  | int | float | record
  | array (elem : Option Elem)
  | other
  deriving DecidableEq, Repr

/-- One of the `vhpiConstraints` of a type: `vhpiLeftBoundP`, `vhpiRightBoundP`, `vhpiIsUpP`,
`vhpiIsUnconstrainedP`. -/
structure Con where
  left : Int
  right : Int
  up : Bool
  uncon : Bool := false
  deriving DecidableEq, Repr

/-- The format `vhpi_get_value` chooses for an object (VhpiSignal.cpp:57-119). -/
inductive Fmt where
  | int | enum | longInt | real | smallEnum | char | str | other
  deriving DecidableEq, Repr

/-- One-to-many relations, VhpiIterator.cpp:13-66. -/
inductive Rel where
  | internalRegions | sigDecls | varDecls | portDecls | genericDecls | constDecls | compInstStmts
  | blockStmts | indexedNames | selectedNames | decls | sensitivitys | stmts | attrSpecs
  deriving DecidableEq, Repr

/-- `gpi_objtype`, gpi.h:196-215, the ones of the VHPI. -/
inductive GType where
  | module | array | enum | structure | real | integer | fixedString | genArray | logic | logicArray
  deriving DecidableEq, Repr

/-- `gpi_range_dir`. -/
inductive Dir where
  | up | down | noDir
  deriving DecidableEq, Repr

/-- Compile-time switches: `IUS` (Xcelium), `MODELSIM`, `NVC`, and the texts around the index of a
generate block (VhpiImpl.hpp:25-34). -/
structure Flavor where
  ius : Bool := false
  modelsim : Bool := false
  nvc : Bool := false
  sepL : Text := [40]
  sepR : Text := [41]

/-- The simulator's answers: kind, base type, name as in the source, dimensions of the base type,
constraints of base type and subtype, `vhpi_handle_by_index(vhpiIndexedNames)`, `vhpi_handle_by_name`,
`vhpi_iterator` with all `vhpi_scan` results, the object with its prefixes, whether it is globally static,
value format, size, the name of the entity of its design unit, and the root. -/
structure Vhpi where
  kind : H → Kind
  ty : H → Option Ty
  caseName : H → Option Text
  numDim : H → Nat
  baseCons : H → List Con
  subCons : H → List Con
  byIndex : H → Int → Option H
  byName : Text → Option H
  iter : Rel → H → Option (List H)
  chain : H → List H
  static : H → Bool
  format : H → Option Fmt
  size : H → Int
  entity : H → Option Text
  root : Option H

/-- `GpiObjHdl`: simulator object and what the user can ask for, gpi_priv.hpp:58-108. -/
structure Obj where
  hdl : H
  type : GType
  const : Bool := false
  numElems : Int := 0
  indexable : Bool := false
  left : Int := -1
  right : Int := -1
  dir : Dir := .noDir
  name : Text
  full : Text
  deriving DecidableEq, Repr

/-! ## Text -/

/-- `snprintf(buff, 14, "(%d)", index)`, VhpiImpl.cpp:659: at most 13 characters are kept. -/
def idxText (i : Int) : Text := (40 :: (decInt i ++ [41])).take 13

/-- The decimal digits at the start of a text as a number. -/
def digitsVal (t : Text) : Nat := (t.takeWhile fun c => 48 ≤ c && c ≤ 57).foldl (fun a c => 10 * a + (c - 48)) 0

/-- `atoi`: blanks, a sign, digits. -/
def atoi (t : Text) : Int :=
  match t.dropWhile fun c => c == 32 || (9 ≤ c && c ≤ 13) with
  | [] => 0
  | c :: r => if c = 45 then -(digitsVal r : Int) else if c = 43 then digitsVal r else digitsVal (c :: r)

/-- The loop over the pseudo-indices of a name, VhpiImpl.cpp:709-719; `acc` is the text before the next
`)`: `substr(1, found - 1)` is the text between its first character and the `)`, and all but the first
character if the `)` is the first one. -/
def pseudoIdx (acc : Text) : Text → List Int
  | [] => []
  | c :: t =>
    if c = 41 then
      (match acc with
        | [] => atoi t
        | _ :: m => atoi m) :: pseudoIdx [] t
    else pseudoIdx (acc ++ [c]) t

/-- The indices in the name of a pseudo-handle, VhpiImpl.cpp:705-720. -/
def usedIdx (hdlName name : Text) : List Int :=
  if hdlName.length < name.length then pseudoIdx [] (name.drop hdlName.length) else []

/-- ASCII `toupper`. -/
def upperc (c : Nat) : Nat := if 97 ≤ c ∧ c ≤ 122 then c - 32 else c

/-- `compare_names`, VhpiImpl.cpp:269-280. -/
def sameName (c : Flavor) (a b : Text) : Bool := if c.nvc then a.map upperc == b.map upperc else a == b

/-- The part before the last occurrence of `p`, everything if there is none: `a.substr(0, a.rfind(p))`. -/
def beforeLast (p t : Text) : Text :=
  match rfindSuffix p t with
  | some s => t.take (t.length - s.length)
  | none => t

/-- `compare_generate_labels`, VhpiImpl.cpp:1077-1083. -/
def sameLabel (c : Flavor) (a b : Text) : Bool := sameName c (beforeLast c.sepL a) (beforeLast c.sepL b)

/-- The part after the last `.`, VhpiImpl.cpp:567-572. -/
def lastPart (t : Text) : Text :=
  match cutLast 46 t with
  | some (_, s) => s.drop 1
  | none => t

/-- `fully_qualified_name`, VhpiImpl.cpp:508-522. -/
def qualified (c : Flavor) (p : Obj) (name : Text) : Text :=
  let f := if p.full = [58] then p.full ++ name else p.full ++ [46] ++ name
  if c.nvc then f.map upperc else f

/-! ## Types -/

/-- A literal. -/
def str (s : String) : Text := ofStr s.toList

/-- `is_enum_logic` for an iteration over literals, VhpiImpl.cpp:172-187: each literal starts with the
expected one, bare or in quotes. -/
def litsAre : List Text → List Text → Bool
  | _, [] => true
  | [], _ :: _ => false
  | e :: es, l :: ls => (e.isPrefixOf l || (39 :: (e ++ [39])).isPrefixOf l) && litsAre es ls

/-- The literals of `bit`. -/
def bitLits : List Text := [str "0", str "1"]
/-- The literals of `std_ulogic`. -/
def logicLits : List Text := [str "U", str "X", str "0", str "1", str "Z", str "W", str "L", str "H", str "-"]

/-- `is_enum_logic`, VhpiImpl.cpp:160-218; the simulator can iterate over the literals. -/
def isLogic (name : Text) (lits : List Text) : Bool :=
  if (str "BIT").isPrefixOf name || (str "STD_ULOGIC").isPrefixOf name || (str "STD_LOGIC").isPrefixOf name then true
  else if lits.length = 2 then litsAre bitLits lits
  else if lits.length = 9 then litsAre logicLits lits
  else false

/-- `is_enum_char`, VhpiImpl.cpp:220-230. -/
def isChar (name : Text) (lits : List Text) : Bool :=
  if (str "CHARACTER").isPrefixOf name then true else decide (lits.length = 256)

/-- `is_enum_boolean`, VhpiImpl.cpp:232-267. -/
def isBoolean (name : Text) (lits : List Text) : Bool :=
  if (str "BOOLEAN").isPrefixOf name then true
  else match lits with
    | [f, t] =>
      ((str "FALSE").isPrefixOf f || (str "false").isPrefixOf f) &&
      ((str "TRUE").isPrefixOf t || (str "true").isPrefixOf t)
    | _ => false

/-- `create_gpi_obj_from_handle`, the part that finds the type, VhpiImpl.cpp:282-462; `none` is an object
that cannot be mapped. -/
def gpiType (c : Flavor) (V : Vhpi) (h : H) (name : Text) : Option GType :=
  match V.ty h with
  | some (.array elem) =>
    if V.numDim h > 1 then some .array
    else match elem with
      | some (.enum n ls) =>
        if isLogic n ls then some .logicArray else if isChar n ls then some .fixedString else some .array
      | some .other => some .array
      | none => some .array
  | some (.enum n ls) =>
    if isLogic n ls then some .logic
    else if isChar n ls then some .integer
    else if isBoolean n ls then some .integer
    else some .enum
  | some .int => some .integer
  | some .float => some .real
  | some .record => some .structure
  | some .other => if V.static h then some .module else none
  | none =>
    match V.kind h with
    | .process | .simpleAssign | .condAssign | .selectAssign => some .module
    | .rootInst =>
      let n := (V.caseName h).getD []
      let n := if !sameName c n name then (V.entity h).getD n else n
      if sameName c name n then some .module else some .genArray
    | .ifGenerate | .forGenerate | .blockStmt | .compInst =>
      if sameName c name ((V.caseName h).getD []) then some .module else some .genArray
    | _ => if V.static h then some .module else none

/-! ## Making objects -/

/-- The direction of a constraint, VhpiObj.cpp:67-79. -/
def conDir (c : Flavor) (k : Con) : Dir :=
  if c.modelsim then (if k.left < k.right then .up else .down) else if k.up then .up else .down

/-- A constraint of a base type that has no bounds, VhpiObj.cpp:60-64, VhpiImpl.cpp:757-764. -/
def noBounds (c : Flavor) (k : Con) : Bool :=
  if c.ius then k.left == 2147483647 || k.right == 2147483647 else k.uncon

/-- `get_range`, VhpiObj.cpp:27-131; `none` is the error return. -/
def rangeOf (c : Flavor) (V : Vhpi) (h : H) (dim : Nat) : Option (Int × Int × Dir) :=
  let base : Option (Int × Int × Dir) :=
    match V.ty h with
    | none => none
    | some _ =>
      match (V.baseCons h)[dim]? with
      | some k => if noBounds c k then none else some (k.left, k.right, conDir c k)
      | none => none
  match base with
  | some r => some r
  | none =>
    match (V.subCons h)[dim]? with
    | some k => if k.uncon then none else some (k.left, k.right, conDir c k)
    | none => none

/-- The number of pseudo-indices in the name, VhpiObj.cpp:157-177. -/
def dimOf (V : Vhpi) (h : H) (name : Text) : Nat :=
  if V.numDim h > 1 then
    let hdlName := (V.caseName h).getD []
    if hdlName.length < name.length then (name.drop hdlName.length).count 41 else 0
  else 0

/-- `VhpiArrayObjHdl::initialise`, VhpiObj.cpp:134-199. -/
def initArray (c : Flavor) (V : Vhpi) (o : Obj) : Option Obj :=
  match V.ty o.hdl with
  | none => none
  | some _ =>
    match rangeOf c V o.hdl (dimOf V o.hdl o.name) with
    | none => none
    | some (l, r, d) =>
      let n := if d = .down then l - r + 1 else r - l + 1
      some { o with indexable := true, left := l, right := r, dir := d, numElems := if n < 0 then 0 else n }

/-- The range of an indexable signal, VhpiSignal.cpp:121-124 and 173-176. -/
def withRange (c : Flavor) (V : Vhpi) (o : Obj) : Obj :=
  match rangeOf c V o.hdl 0 with
  | some (l, r, d) => { o with indexable := true, left := l, right := r, dir := d }
  | none => { o with indexable := false }

/-- `VhpiSignalObjHdl::initialise`, VhpiSignal.cpp:54-133. -/
def initSignal (c : Flavor) (V : Vhpi) (o : Obj) : Option Obj :=
  match V.format o.hdl with
  | some .int | some .enum => some { o with numElems := 32 }
  | some .longInt | some .real => some { o with numElems := 64 }
  | some .smallEnum | some .char => some { o with numElems := 8 }
  | some .str => some (withRange c V { o with numElems := V.size o.hdl })
  | some .other | none => none

/-- `VhpiLogicSignalObjHdl::initialise`, VhpiSignal.cpp:135-185. -/
def initLogic (c : Flavor) (V : Vhpi) (o : Obj) : Option Obj :=
  match V.ty o.hdl with
  | some (.array _) => some (withRange c V { o with numElems := V.size o.hdl })
  | _ => some { o with numElems := V.size o.hdl }

/-- `is_const`, VhpiImpl.cpp:144-158. -/
def isConst (V : Vhpi) (h : H) : Bool := (V.chain h).any fun k => V.kind k == .constDecl || V.kind k == .genericDecl

/-- `VhpiImpl::create_gpi_obj_from_handle`, VhpiImpl.cpp:282-506. -/
def createObj (c : Flavor) (V : Vhpi) (h : H) (name full : Text) : Option Obj :=
  if V.kind h = .verilog then none
  else match gpiType c V h name with
    | none => none
    | some t =>
      match t with
      | .array => initArray c V { hdl := h, type := t, name := name, full := full }
      | .genArray | .module | .structure => some { hdl := h, type := t, name := name, full := full }
      | .logic | .logicArray =>
        initLogic c V { hdl := h, type := t, const := isConst V h, name := name, full := full }
      | .enum | .real | .integer | .fixedString =>
        initSignal c V { hdl := h, type := t, const := isConst V h, name := name, full := full }

/-! ## Lookup -/

/-- The result of a lookup: an object, `NULL`, or undefined (a `NULL` handle is given to the
simulator). -/
inductive Res where
  | obj (o : Obj)
  | missing
  | undefined
  deriving DecidableEq, Repr

/-- An object or `NULL`. -/
def Res.of : Option Obj → Res
  | some o => .obj o
  | none => .missing

/-- What a lookup by name does with the simulator's object, VhpiImpl.cpp:609-628. -/
def nameRes (c : Flavor) (V : Vhpi) (name : Text) (p : Obj) (h : H) : Res :=
  Res.of (createObj c V (if V.kind h = .forGenerate then p.hdl else h) name (qualified c p name))

/-- `VhpiImpl::get_child_by_name`, VhpiImpl.cpp:547-629. If the record of a lookup has no such element
the `NULL` handle is used without a check (lines 557-578, 616). -/
def vhpiByName (c : Flavor) (V : Vhpi) (name : Text) (p : Obj) : Res :=
  match V.byName (qualified c p name) with
  | some h => nameRes c V name p h
  | none =>
    if p.type = .structure then
      match ((V.iter .selectedNames p.hdl).getD []).find? fun h =>
          sameName c (lastPart ((V.caseName h).getD [])) name with
      | some h => nameRes c V name p h
      | none => .undefined
    else if ((V.iter .internalRegions p.hdl).getD []).any fun r =>
        V.kind r == .forGenerate && sameLabel c ((V.caseName r).getD []) name then
      nameRes c V name p p.hdl
    else .missing

/-- The constraints of all dimensions, VhpiImpl.cpp:748-800. -/
def constraints (c : Flavor) (V : Vhpi) (h : H) : Option (List Con) :=
  let b := (V.baseCons h).takeWhile fun k => !noBounds c k
  if b.length = V.numDim h then some b
  else
    let s := (V.subCons h).takeWhile fun k => !k.uncon
    if s.length = V.numDim h then some s else none

/-- The loop that makes one position of all indices, VhpiImpl.cpp:803-827; it starts with the last
dimension. -/
def flatGo : List Con → List Int → Int → Int → Int
  | k :: ks, i :: is, idx, scale =>
    if k.left > k.right then flatGo ks is (idx + scale * (k.left - i)) (scale * (k.left - k.right + 1))
    else flatGo ks is (idx + scale * (i - k.left)) (scale * (k.right - k.left + 1))
  | _, _, idx, _ => idx

/-- The element at a position, VhpiImpl.cpp:849-870. -/
def elemAt (V : Vhpi) (h : H) (idx : Int) : Option H :=
  match V.byIndex h idx with
  | some e => some e
  | none => if idx < 0 then none else ((V.iter .indexedNames h).getD [])[idx.toNat]?

/-- The simulator's object for an index, VhpiImpl.cpp:641-877. -/
def resolveIndex (c : Flavor) (V : Vhpi) (i : Int) (p : Obj) : Option H :=
  match p.type with
  | .genArray => V.byName (p.full ++ c.sepL ++ (decInt i).take 13 ++ c.sepR)
  | .logic | .logicArray | .array | .fixedString =>
    match V.ty p.hdl with
    | none => none
    | some _ =>
      if V.numDim p.hdl > 1 then
        let is := usedIdx ((V.caseName p.hdl).getD []) p.name ++ [i]
        if is.length = V.numDim p.hdl then
          match constraints c V p.hdl with
          | some ks => elemAt V p.hdl (flatGo ks.reverse is.reverse 0 1)
          | none => none
        else some p.hdl
      else elemAt V p.hdl (if p.left > p.right then p.left - i else i - p.left)
  | _ => none

/-- The text an index adds to the name, VhpiImpl.cpp:643-646, 659-663. -/
def idxSuffix (c : Flavor) (p : Obj) (i : Int) : Text :=
  if p.type = .genArray then c.sepL ++ (decInt i).take 13 ++ c.sepR else idxText i

/-- `VhpiImpl::get_child_by_index`, VhpiImpl.cpp:631-890. -/
def vhpiByIndex (c : Flavor) (V : Vhpi) (i : Int) (p : Obj) : Option Obj :=
  match resolveIndex c V i p with
  | none => none
  | some h => createObj c V h (p.name ++ idxSuffix c p i) (p.full ++ idxSuffix c p i)

/-- `VhpiImpl::get_child_from_handle`, VhpiImpl.cpp:524-545. -/
def vhpiFromHandle (c : Flavor) (V : Vhpi) (h : H) (p : Obj) : Option Obj :=
  match V.caseName h with
  | none => none
  | some n => createObj c V h n (qualified c p n)

/-- `VhpiImpl::get_root_handle`, VhpiImpl.cpp:890-979. -/
def vhpiRoot (c : Flavor) (V : Vhpi) (name : Option Text) : Option Obj :=
  match V.root with
  | none => none
  | some r =>
    let rn := (V.caseName r).getD []
    match name with
    | none => createObj c V r rn rn
    | some n =>
      if sameName c n rn then createObj c V r rn rn
      else
        match (V.entity r).filter (sameName c n) with
        | some e => createObj c V r e e
        | none =>
          match V.byName (if n.head? = some 58 then n else 58 :: n) with
          | none => none
          | some d =>
            let dn := (V.caseName d).getD []
            if sameName c n dn then createObj c V d dn dn else none

/-! ## Iteration -/

/-- The relations of the kinds of regions and objects, VhpiIterator.cpp:13-66. -/
def iterateOver : Kind → Option (List Rel)
  | .rootInst | .compInst => some [.internalRegions, .sigDecls, .varDecls, .portDecls, .genericDecls, .constDecls,
      .compInstStmts, .blockStmts]
  | .genericDecl | .sigDecl | .selectedName | .indexedName | .portDecl => some [.indexedNames, .selectedNames]
  | .condAssign | .simpleAssign | .selectAssign => some [.decls, .internalRegions, .sensitivitys, .stmts]
  | .forGenerate | .ifGenerate | .blockStmt => some [.decls, .internalRegions, .sigDecls, .varDecls, .constDecls,
      .compInstStmts, .blockStmts]
  | .constDecl => some [.attrSpecs, .indexedNames, .selectedNames]
  | _ => none

/-- What `next_handle` gives, gpi_priv.hpp:186-200: an object, a name without an object, or an object
without a name (given to the other interfaces). -/
inductive Item where
  | native (o : Obj)
  | name (n : Text)
  | raw (h : H)
  deriving DecidableEq, Repr

/-- An object that is passed over, VhpiIterator.cpp:154-182. -/
def skipped (c : Flavor) (V : Vhpi) (p : Obj) (h : H) : Bool :=
  (p.type == .genArray &&
    !(V.kind h == .forGenerate && sameLabel c ((V.caseName h).getD []) p.name)) ||
  V.kind h == .process || V.kind h == .condAssign || V.kind h == .simpleAssign || V.kind h == .selectAssign

/-- What `VhpiIterator::next_handle` makes of one object, VhpiIterator.cpp:223-299. The kinds of the VHPI
are numbers from 1000 on, so an object without a name that is `other` may be a foreign one. -/
def scanItem (c : Flavor) (V : Vhpi) (p : Obj) (rel : Rel) (h : H) : Item :=
  match V.caseName h with
  | none => .raw h
  | some cn =>
    let (name, obj) : Text × H :=
      if rel = .internalRegions ∧ p.type ≠ .genArray ∧ V.kind h = .forGenerate then
        match rfindSuffix c.sepL cn with
        | some s => if s.length = cn.length then (cn, h) else (cn.take (cn.length - s.length), p.hdl)
        | none => (cn, h)
      else (cn, h)
    let (name, full) : Text × Text :=
      if p.full = [58] then (name, p.full ++ name)
      else if p.type = .genArray then
        match rfindSuffix c.sepL name with
        | some s => (name, p.full ++ s)
        | none => (name, p.full ++ [46] ++ name)
      else if p.type = .structure then
        match cutLast 46 name with
        | some (_, s) => (s.drop 1, p.full ++ s)
        | none => (name, p.full ++ [46] ++ name)
      else (name, p.full ++ [46] ++ name)
    match createObj c V obj name full with
    | some o => .native o
    | none => .name name

/-- `VhpiImpl::iterate_handle` and all `next_handle` calls, VhpiImpl.cpp:981-1000, VhpiIterator.cpp:68-301.
A pseudo-region looks at internal regions only. -/
def vhpiItems (c : Flavor) (V : Vhpi) (p : Obj) : List Item :=
  match iterateOver (V.kind p.hdl) with
  | none => []
  | some rels =>
    (rels.filter fun r => p.type != .genArray || r == .internalRegions).flatMap fun r =>
      (((V.iter r p.hdl).getD []).filter fun h => !skipped c V p h).map (scanItem c V p r)

end Verif.Vhpi
