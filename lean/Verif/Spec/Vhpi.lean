import Verif.Model.Vhpi
import Verif.Spec.Range
/-!
# Specification of arrays of a VHDL design
-/
namespace Verif.Spec

open Vhpi

/-- The bounds of one dimension: left, direction, right. -/
abbrev Rng := Int × Verif.Dir × Int

/-- The indices of a dimension from left to right. -/
def Rng.seq (d : Rng) : List Int := rangeSeq d.1 d.2.1 d.2.2

/-- The indices of an array with any number of dimensions, in the order of its elements: the last index
changes fastest (IEEE 1076). -/
def tuples : List Rng → List (List Int)
  | [] => [[]]
  | d :: ds => d.seq.flatMap fun i => (tuples ds).map (i :: ·)

/-- A constraint with these bounds. -/
def conOf (d : Rng) : Con := { left := d.1, right := d.2.2, up := d.2.1 == .to }

/-- Numbers of type `integer`. -/
def VhdlInt (i : Int) : Prop := -2147483648 ≤ i ∧ i ≤ 2147483647

/-- How a simulator describes a dimension without bounds: Xcelium by the greatest integer. -/
def Unbounded (c : Flavor) (k : Con) : Prop :=
  if c.ius then k.left = 2147483647 ∨ k.right = 2147483647 else k.uncon = true

instance (c : Flavor) (k : Con) : Decidable (Unbounded c k) := by unfold Unbounded; infer_instance

/-- The simulator describes object `h` as an array with dimensions `ds` and elements `es`: the base type
has the bounds, or it is unconstrained and the subtype has them; `vhpi_handle_by_index` counts the elements
from 0 or is not supported; the value of an array of characters is a string. -/
structure VhdlArray (c : Flavor) (V : Vhpi) (h : H) (ds : List Rng) (es : List H) : Prop where
  object : V.kind h ≠ .verilog
  array : ∃ e, V.ty h = some (.array e)
  numDim : V.numDim h = ds.length
  some_dim : ds ≠ []
  bounds : (V.baseCons h = ds.map conOf ∧ ∀ d ∈ ds, ¬ Unbounded c (conOf d)) ∨
    ((∀ k ∈ V.baseCons h, Unbounded c k) ∧ V.subCons h = ds.map conOf)
  int32 : ∀ d ∈ ds, VhdlInt d.1 ∧ VhdlInt d.2.2
  elements : V.iter .indexedNames h = some es
  count : es.length = (tuples ds).length
  byIndex : ∀ i, V.byIndex h i = none ∨ (0 ≤ i ∧ V.byIndex h i = es[i.toNat]?)
  chars : V.format h = some .str

/-- `o[i][j]…`: what the indices lead to. -/
def walk (c : Flavor) (V : Vhpi) (o : Obj) : List Int → Option Obj
  | [] => some o
  | i :: is => (vhpiByIndex c V i o).bind fun o' => walk c V o' is

/-- `(i)(j)…`. -/
def indexSuffix : List Int → Text
  | [] => []
  | i :: is => 40 :: (Gpi.decInt i ++ [41]) ++ indexSuffix is

/-- The direction of a VHDL range as the user sees it. -/
def gpiDir : Verif.Dir → Vhpi.Dir
  | .to => .up
  | .downto => .down

end Verif.Spec

namespace Verif.Spec

open Vhpi

/-! ## Types -/

/-- An enumeration literal: a character or an identifier. -/
inductive Lit where
  | chr (c : Nat)
  | ident (t : Text)
  deriving DecidableEq, Repr

/-- The text of a literal; characters are in quotes, or bare (Aldec, VhpiImpl.cpp:173). -/
def Lit.text (bare : Bool) : Lit → Text
  | .chr c => if bare then [c] else [39, c, 39]
  | .ident t => t

/-- Identifiers start with a letter or, extended ones, with a backslash. -/
def Lit.Legal : Lit → Prop
  | .chr _ => True
  | .ident t => ∃ c r, t = c :: r ∧ (65 ≤ c ∧ c ≤ 90 ∨ 97 ≤ c ∧ c ≤ 122 ∨ c = 92)

/-- An enumeration type. -/
structure EnumType where
  name : Text
  lits : List Lit

/-- The literals of `std.standard.bit`. -/
def stdBit : List Lit := "01".toList.map fun c => .chr c.toNat
/-- The literals of `ieee.std_logic_1164.std_ulogic`. -/
def stdUlogic : List Lit := "UX01ZWLH-".toList.map fun c => .chr c.toNat
/-- The literals of `std.standard.boolean`, in capitals or not. -/
def booleans : List (List Lit) :=
  [[.ident (ofStr "FALSE".toList), .ident (ofStr "TRUE".toList)], [.ident (ofStr "false".toList), .ident (ofStr "TRUE".toList)],
   [.ident (ofStr "FALSE".toList), .ident (ofStr "true".toList)], [.ident (ofStr "false".toList), .ident (ofStr "true".toList)]]

/-- The kinds of enumerations that users know. -/
inductive EnumKind where
  | logic | character | boolean | enum
  deriving DecidableEq, Repr

/-- What an enumeration is, by its literals or, for `character`, its name. -/
def EnumType.kind (t : EnumType) : EnumKind :=
  if t.lits = stdBit ∨ t.lits = stdUlogic then .logic
  else if t.name = ofStr "CHARACTER".toList then .character
  else if t.lits ∈ booleans then .boolean
  else .enum

/-- The object an enumeration is shown as: LogicObject, IntegerObject for characters and Booleans,
EnumObject. -/
def EnumKind.object : EnumKind → GType
  | .logic => .logic
  | .character | .boolean => .integer
  | .enum => .enum

/-- The object an array of an enumeration is shown as. -/
def EnumKind.arrayObject : EnumKind → GType
  | .logic => .logicArray
  | .character => .fixedString
  | .boolean | .enum => .array

/-- The texts of the literals. -/
def EnumType.texts (bare : Bool) (t : EnumType) : List Text := t.lits.map (Lit.text bare)

end Verif.Spec

namespace Verif.Spec

open Vhpi

/-! ## Names -/

/-- The full name of what is called `name` below `p`; NVC has upper case only. -/
def fullName (c : Flavor) (p : Obj) (name : Text) : Text :=
  let f := if p.full = str ":" then str ":" ++ name else p.full ++ str "." ++ name
  if c.nvc then f.map upperc else f

/-- There is something with this name below `p`: an object with the full name, an element of the record, or a
generate loop with this label. -/
def Known (c : Flavor) (V : Vhpi) (p : Obj) (name : Text) : Prop :=
  (V.byName (qualified c p name)).isSome ∨
  (p.type = .structure ∧ ∃ hs h n, V.iter .selectedNames p.hdl = some hs ∧ h ∈ hs ∧ V.caseName h = some n ∧
    sameName c (lastPart n) name) ∨
  (∃ rs r n, V.iter .internalRegions p.hdl = some rs ∧ r ∈ rs ∧ V.kind r = .forGenerate ∧ V.caseName r = some n ∧
    sameName c (beforeLast c.sepL n) name)

/-- The texts around the index of a generate block (VhpiImpl.hpp:25-34). -/
def Seps (c : Flavor) : Prop := (c.sepL = [40] ∧ c.sepR = [41]) ∨ (c.sepL = [95, 95] ∧ c.sepR = [])

/-- A region of the design. -/
def Region (V : Vhpi) (h : H) : Prop :=
  V.ty h = none ∧ V.kind h ∈ [.rootInst, .ifGenerate, .forGenerate, .blockStmt, .compInst]

/-- The index of a block as it is written in its name. -/
def blockIdx (c : Flavor) (i : Int) : Text := c.sepL ++ Gpi.decInt i ++ c.sepR

/-- Region `p` has a generate loop `label` with the blocks `els`: index and region. -/
structure Loop (c : Flavor) (V : Vhpi) (p : Obj) (label : Text) (els : List (Int × H)) : Prop where
  seps : Seps c
  parent : Region V p.hdl
  plain : Gpi.rfindSuffix c.sepL label = none
  blocks : els ≠ []
  int32 : ∀ e ∈ els, VhdlInt e.1
  region : ∀ e ∈ els, V.kind e.2 = .forGenerate ∧ V.ty e.2 = none ∧ V.caseName e.2 = some (label ++ blockIdx c e.1)
  listed : ∃ rs, V.iter .internalRegions p.hdl = some rs ∧
    (rs.filter fun r => V.kind r = .forGenerate ∧ sameName c (beforeLast c.sepL ((V.caseName r).getD [])) label) = els.map (·.2)
  whole : V.byName (qualified c p label) = none ∨ ∃ h, V.byName (qualified c p label) = some h ∧ V.kind h = .forGenerate
  one : ∀ i, V.byName (qualified c p label ++ blockIdx c i) = (els.find? (·.1 = i)).map (·.2)

end Verif.Spec
