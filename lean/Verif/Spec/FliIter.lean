import Verif.Model.FliIter
import Verif.Props.VhdlNames
/-!
# What listing an object of the FLI gives
-/
namespace Verif.Spec.FliIter

open Verif.FliIter (Sim Item PKind)
open Verif.Vhpi (H GType)

/-- What a lookup of `n` below `p` gives, as an entry of a listing. -/
def looked (F : Sim) (p : Fli.Obj) (n : Text) : Item :=
  match Fli.fliByName F.toFli n p with
  | some o => .native o
  | none => .notNative n

/-- The name under which a region is known to its parent: blocks of a loop by the label of the loop. -/
def shown (F : Sim) (r : H) : Text := if F.forGen r then Vhpi.beforeLast [40] (F.regionName r) else F.regionName r

/-- Region `p`, all whose constants, signals and regions can be looked up under their names, with no two
different things under one name. The blocks of a loop are named by label and index and the label alone is
the name of nothing, or of one of the loop. -/
structure Scope (F : Sim) (p : Fli.Obj) : Prop where
  parent : p.type = .module ∧ F.pkind p.hdl = .region
  const : ∀ h ∈ F.consts p.hdl, F.forGen h = false ∧ ∃ n, F.varName h = some n ∧
    F.region (fliFull p n) = none ∧ F.sig (fliFull p n) = none ∧ F.var (fliFull p n) = some h
  signal : ∀ h ∈ F.signals p.hdl, F.forGen h = false ∧ ∃ n, F.sigName h = some n ∧
    F.region (fliFull p n) = none ∧ F.sig (fliFull p n) = some h
  region : ∀ h ∈ F.lower p.hdl, F.forGen h = false → F.region (fliFull p (F.regionName h)) = some h
  loop : ∀ h ∈ F.lower p.hdl, F.forGen h = true → ∃ label i, F.regionName h = label ++ indexSuffix [i] ∧ label ≠ [] ∧
    40 ∉ label ∧
    ((F.region (fliFull p label) = none ∧ F.sig (fliFull p label) = none ∧ F.var (fliFull p label) = none) ∨
      ∃ r, F.region (fliFull p label) = some r ∧ F.forGen r)

/-- The names of everything in a region: constants, signals, regions, in the simulator's order. -/
def names (F : Sim) (p : Fli.Obj) : List Text :=
  (F.consts p.hdl).filterMap F.varName ++ (F.signals p.hdl).filterMap F.sigName ++ (F.lower p.hdl).map (shown F)

/-- The simulator finds under the names of a region only what it lists in it. -/
structure Closed (F : Sim) (p : Fli.Obj) : Prop where
  region : ∀ n h, F.region (fliFull p n) = some h → h ∈ F.lower p.hdl ∧ shown F h = n
  signal : ∀ n h, F.sig (fliFull p n) = some h → h ∈ F.signals p.hdl ∧ F.sigName h = some n
  var : ∀ n h, F.var (fliFull p n) = some h → h ∈ F.consts p.hdl ∧ F.varName h = some n

/-- Record `p` with the fields `fs` (handle and name): the name of a field the simulator gives ends in a dot and the name of
the field, and under it the simulator finds the field. -/
structure Record (F : Sim) (p : Fli.Obj) (fs : List (H × Text)) : Prop where
  parent : p.type = .structure ∧ p.full ≠ [47] ∧ F.pkind p.hdl = if p.isVar then PKind.variable else .signal
  subs : F.subs p.hdl = fs.map (·.1)
  fields : ∀ e ∈ fs, F.forGen e.1 = false ∧
    (∃ a, (if p.isVar then F.varName else F.partName) e.1 = some (a ++ [46] ++ e.2)) ∧
    (if p.isVar then F.var else F.sig) (p.full ++ [46] ++ e.2) = some e.1

/-- Array `p` with the elements `es` (index and handle) in the order of their declaration, from the left bound to the right
one; the simulator names an element by its index. -/
structure Arr (F : Sim) (p : Fli.Obj) (es : List (Int × H)) : Prop where
  parent : p.type = .array ∧ p.full ≠ [47] ∧ p.indexable = true ∧ F.pkind p.hdl = if p.isVar then PKind.variable else .signal
  left : ∀ e, es[0]? = some e → e.1 = p.left
  right : ∀ e, es[es.length - 1]? = some e → e.1 = p.right
  step : ∀ (k : Nat) e f, es[k]? = some e → es[k + 1]? = some f → f.1 = if p.left > p.right then e.1 - 1 else e.1 + 1
  some : es ≠ []
  length : p.numElems = es.length
  subs : F.subs p.hdl = es.map (·.2)
  elems : ∀ e ∈ es, Spec.VhdlInt e.1 ∧ F.value e.2 = true ∧
    ∃ a, (if p.isVar then F.varName else F.partName) e.2 = Option.some (a ++ Vhpi.idxText e.1)

/-- What a lookup of index `i` of `p` gives, as an entry of a listing. -/
def lookedIndex (F : Sim) (p : Fli.Obj) (i : Int) : Option Item := (Fli.fliByIndex F.toFli i p).map .native

/-- The same with another name. -/
def renamed (name : Text) : Item → Item
  | .native o => .native { o with name := name }
  | .notNative _ => .notNative name
  | i => i

end Verif.Spec.FliIter
