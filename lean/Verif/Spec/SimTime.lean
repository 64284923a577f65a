import Mathlib.Data.Rat.Floor
/-!
# Specification of simulation time: everything is compared in seconds
-/
namespace Verif.Spec

/-- Power of ten (in seconds) of a unit name; a simulator step is `10^prec` seconds. -/
def unitExp (prec : Int) (unit : String) : Option Int :=
  if unit = "step" then some prec
  else if unit.toLower = "fs" then some (-15)
  else if unit.toLower = "ps" then some (-12)
  else if unit.toLower = "ns" then some (-9)
  else if unit.toLower = "us" then some (-6)
  else if unit.toLower = "ms" then some (-3)
  else if unit.toLower = "sec" then some 0
  else none

/-- `n` is what the rounding mode makes of the exact number `x`. -/
def Rounds (mode : String) (x : ℚ) (n : ℤ) : Prop :=
  (mode = "error" ∧ (n : ℚ) = x) ∨
  (mode = "floor" ∧ (n : ℚ) ≤ x ∧ x < n + 1) ∨
  (mode = "ceil" ∧ (n : ℚ) - 1 < x ∧ x ≤ n) ∨
  (mode = "round" ∧ |x - n| ≤ 1 / 2 ∧ (|x - n| = 1 / 2 → n % 2 = 0))

end Verif.Spec
