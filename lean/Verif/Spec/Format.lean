import Verif.Py.Format
/-!
# Specification of fixed-width numerals
-/
namespace Verif.Spec

/-- The `i`-th digit (weight `base^i`) of `v`. -/
def digit (ty : FmtTy) (v i : Nat) : Char := digitChar (ty == .X) (v / ty.base ^ i % ty.base)

/-- The `w`-digit numeral of `v`, most significant digit first. -/
def numeral (ty : FmtTy) (w v : Nat) : PyStr := (List.range w).reverse.map (digit ty v)

/-- The same numeral with `sep` after every digit whose weight is a positive multiple of `k` places. -/
def grouped (ty : FmtTy) (sep : Char) (k w v : Nat) : PyStr :=
  (List.range w).reverse.flatMap fun i => digit ty v i :: (if 0 < i ∧ i % k = 0 then [sep] else [])

/-- Digits needed for an array of `n` bits. -/
def digitsFor : FmtTy → Nat → Nat
  | .b, n => n
  | .o, n => (n + 2) / 3
  | .x, n => (n + 3) / 4
  | .X, n => (n + 3) / 4
  | .d, n => (n + 9) / 10

/-- The letter of the presentation type. -/
def letter : FmtTy → Char
  | .b => 'b'
  | .o => 'o'
  | .x => 'x'
  | .X => 'X'
  | .d => 'd'

end Verif.Spec
