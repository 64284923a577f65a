import Verif.Model.Vpi
/-!
# Arrays with several dimensions, indexed one dimension at a time
-/
namespace Verif.GpiArray
open Gpi

/-- The indices as they stand in a name: `[1][-2]`. -/
def indices : List Int → Text
  | [] => []
  | i :: is => 91 :: (decInt i ++ [93]) ++ indices is

/-- Each index is between the bounds of its dimension. -/
def Within : List Int → List (Int × Int) → Prop
  | [], _ => True
  | i :: is, (l, r) :: rs => ((l ≤ i ∧ i ≤ r) ∨ (r ≤ i ∧ i ≤ l)) ∧ Within is rs
  | _ :: _, [] => False

/-- A simulator that has the array `h` (`rs` are its dimensions) but no objects for its parts: it finds something only when all indices are
given. `n` and `full` are the names of the array; `n` is an identifier. -/
structure Whole (V : Vpi) (h : H) (n full : Text) (rs : List (Int × Int)) : Prop where
  type : ∃ t ∈ [VType.regArray, .netArray, .interfaceArray, .memory], V.type h = some t
  name : V.name h = some n
  ranges : V.ranges h = some rs
  noIndex : ∀ i, V.byIndex h i = none
  noParts : ∀ is, is.length < rs.length → is ≠ [] → V.byName (full ++ indices is) = none
  ident : ∃ x m, n = x :: m ∧ x ≠ 45 ∧ x ≠ 93 ∧ ¬ (48 ≤ x ∧ x ≤ 57) ∧ 91 ∉ n

/-- `array[i₁][i₂]…`. -/
def walk (c : Flavor) (V : Vpi) (o : Obj) (is : List Int) : Option Obj := is.foldlM (fun o i => vpiByIndex c V 0 i o) o

end Verif.GpiArray
