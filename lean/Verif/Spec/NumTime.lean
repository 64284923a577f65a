import Verif.Spec.SimTime
import Mathlib.Algebra.Order.Field.Power
/-!
# Specification of machine numbers

`Digits b p y`: `y` can be written with `p` significant digits in base `b`. Floats are `Digits 2 53`,
decimals of the default context `Digits 10 28`.
-/
namespace Verif.Spec

/-- `y = m * b^e` with a whole number `m` of at most `p` digits. -/
def Digits (b p : Nat) (y : ℚ) : Prop := ∃ m e : ℤ, y = m * (b : ℚ) ^ e ∧ |m| < (b : ℤ) ^ p

/-- `y` is a (binary64) floating point number, ignoring the limits of the exponent. -/
abbrev IsFloat (y : ℚ) : Prop := Digits 2 53 y

/-- `y` is a floating point number, and no floating point number is closer to `x`. -/
def NearestFloat (x y : ℚ) : Prop := IsFloat y ∧ ∀ z, IsFloat z → |x - y| ≤ |x - z|

end Verif.Spec
