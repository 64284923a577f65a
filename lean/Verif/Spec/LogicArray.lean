import Verif.Spec.Logic
import Verif.Spec.Array
import Verif.Model.LogicArray
/-!
# Specification of `LogicArray`: numbers as bit lists, most significant bit first
-/
namespace Verif.Spec
open Logic

/-- Numeric value of one element (`L`,`H` count as 0, 1). -/
def bit (x : Logic) : Option Nat := (boolVal x).map fun b => if b then 1 else 0

/-- Unsigned value: the sum of bit times power of two, the leftmost bit being the most significant. -/
def unsigned : List Logic → Option Nat
  | [] => some 0
  | x :: xs => do
    let b ← bit x
    let v ← unsigned xs
    some (b * 2 ^ xs.length + v)

/-- Two's complement value: the leftmost bit weighs minus its unsigned weight. -/
def signed : List Logic → Option Int
  | [] => none
  | x :: xs => do
    let b ← bit x
    let v ← unsigned xs
    some (-((b : Int) * 2 ^ xs.length) + v)

/-- The `w` low bits of `n` as `0`/`1` elements, most significant first. -/
def bitsBE (w n : Nat) : List Logic :=
  (List.range w).map fun i => if n.testBit (w - 1 - i) then F1 else F0

/-- Value of a byte string, least significant byte first. -/
def valLE : List Byte → Nat
  | [] => 0
  | x :: xs => x.val + 256 * valLE xs

/-- Value of a byte string in a byte order (big: most significant byte first). -/
def bytesVal (b : List Byte) : ByteOrder → Nat
  | .big => valLE b.reverse
  | .little => valLE b

/-- All elements are `0`, `1`, `L` or `H`. -/
def resolvable (l : List Logic) : Prop := ∀ x ∈ l, (boolVal x).isSome

/-- All elements are `0` or `1`. -/
def binary (l : List Logic) : Prop := ∀ x ∈ l, x = F0 ∨ x = F1

/-- The object `a` currently holds the elements `l` (leftmost first): whatever representations it
has cached describe `l`. This is what "the current sequence of Logic values" means for the model. -/
structure Rep (a : LA) (l : List Logic) : Prop where
  len : l.length = a.range.len
  valid : a.range.Valid
  arr : ∀ m, a.arr = some m → m = l
  str : ∀ s, a.str = some s → s = chrs l
  int : ∀ n, a.int = some n → pyIntBase2 ((chrs l).map LA.lhTable) = .ok n
  some : a.str = none → (∃ n, a.int = some n ∧ chrs l = pyFormatBin l.length n) ∨
    (a.int = none ∧ a.arr ≠ none)

end Verif.Spec
