import Verif.Py.Basic
/-!
# Python list item and slice access (step 1)
-/
namespace Verif

variable {α : Type}

/-- Python `l[i] = v`: the new list, or `IndexError`. -/
def pyListSet (l : List α) (i : Int) (v : α) : PyM (List α) :=
  match pyIndex l.length i with
  | some k => .ok (l.set k v)
  | none => .error .indexError

/-- Start position of the slice `l[a:b]`. -/
def sliceLo (len : Nat) (a : Int) : Nat := (PySlice.adjust len 0 len a).toNat

/-- Python `l[a:b]`. -/
def pyListGetSlice (l : List α) (a b : Int) : List α :=
  (l.drop (sliceLo l.length a)).take (sliceLo l.length b - sliceLo l.length a)

/-- Python `l[a:b] = vs` (the replaced part is empty when `b` is left of `a`). -/
def pyListSetSlice (l : List α) (a b : Int) (vs : List α) : List α :=
  l.take (sliceLo l.length a) ++ vs ++ l.drop (max (sliceLo l.length a) (sliceLo l.length b))

end Verif
