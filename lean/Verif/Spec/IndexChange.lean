import Verif.Py.Int
/-!
# Indexing in cocotb 1.x, as the guide for the upgrade describes it (docs/source/update_indexing.rst)
-/
namespace Verif.Spec

/-- The value at index `i` in cocotb 1.x: index 0 is always left-most, index -1 is the last. -/
def oldAt {α : Type} (l : List α) (i : Int) : Option α :=
  if 0 ≤ i then l[i.toNat]?
  else if 0 ≤ i + l.length then l[(i + l.length).toNat]?
  else none

/-- The slice `start:stop` of a binary value in cocotb 1.x: both ends are part of it. -/
def oldBits {α : Type} (l : List α) (start stop : Nat) : List α := (l.take (stop + 1)).drop start

/-- The slice `start:stop` of the list that cocotb 1.x gave for arrays: the stop is not part of it. -/
def oldElems {α : Type} (l : List α) (start stop : Nat) : List α := (l.take stop).drop start

end Verif.Spec
