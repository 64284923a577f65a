import Verif.Model.Range
/-!
# Specification of `Range`: the explicit sequence of integers
-/
namespace Verif.Spec

/-- `left to right` / `left downto right` as the HDL reader understands it. -/
def rangeSeq (left : Int) (d : Dir) (right : Int) : List Int :=
  match d with
  | .to => (List.range (right - left + 1).toNat).map fun (i : Nat) => left + (i : Int)
  | .downto => (List.range (left - right + 1).toNat).map fun (i : Nat) => left - (i : Int)

/-- The `k`-th value counted from `left`. -/
def rangeNth (left : Int) (d : Dir) (k : Int) : Int :=
  match d with
  | .to => left + k
  | .downto => left - k

/-- `v` lies between the bounds. -/
def between (left : Int) (d : Dir) (right v : Int) : Prop :=
  match d with
  | .to => left ≤ v ∧ v ≤ right
  | .downto => right ≤ v ∧ v ≤ left

end Verif.Spec
