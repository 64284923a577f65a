import Verif.Spec.Range
import Verif.Model.Array
/-!
# Specification of arrays: a finite map from indices to elements
-/
namespace Verif.Spec

/-- Distance of index `i` from the left bound, counted in the array's direction. -/
def posOf (left : Int) (d : Dir) (i : Int) : Int :=
  match d with
  | .to => i - left
  | .downto => left - i

/-- The element at index `i` of the array whose elements, from the left bound on, are `l`. -/
def arrAt {α : Type} (left : Int) (d : Dir) (l : List α) (i : Int) : Option α :=
  if 0 ≤ posOf left d i then l[(posOf left d i).toNat]? else none

/-- `start .. stop` is a legal slice of `left .. right`: both bounds inside, in order. -/
def sliceOk (left : Int) (d : Dir) (right start stop : Int) : Prop :=
  between left d right start ∧ between left d right stop ∧ posOf left d start ≤ posOf left d stop

/-- An `Array` object as the constructors build it: as many elements as its range has indices. -/
def ArrWF {α : Type} (a : Arr α) : Prop := a.value.length = a.range.len ∧ a.range.Valid

end Verif.Spec
