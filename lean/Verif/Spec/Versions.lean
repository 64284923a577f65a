import Verif.Model.Versions
/-!
# What the comparison of versions should do
-/
namespace Verif.Spec

open Vers

/-- Blanks are not digits. -/
def SaneDigits (U : Unicode) : Prop := ∀ c, isBlank c = true → U.digit c = none

/-- A digit. -/
def IsDigit (U : Unicode) (c : Nat) : Prop := ∃ d, digitOf U c = some d

/-- A letter from a to z. -/
def IsLower (c : Nat) : Prop := 97 ≤ c ∧ c ≤ 122

/-- Neither a digit nor a small letter nor a dot. -/
def IsMark (U : Unicode) (c : Nat) : Prop := ¬ IsDigit U c ∧ ¬ IsLower c ∧ c ≠ 46

/-- The number written with digits. -/
def digitsValue (U : Unicode) (t : Text) : Nat := t.foldl (fun n c => 10 * n + (digitOf U c).getD 0) 0

/-- `t` does not begin with a character of the kind. -/
def NotFirst (P : Nat → Prop) (t : Text) : Prop := ∀ c, t.head? = some c → ¬ P c

/-- `t` is a way to write components: numbers, words of small letters, and other characters; dots separate and are not
components. -/
inductive Written (U : Unicode) : Text → List Comp → Prop where
  | nil : Written U [] []
  | dot {t : Text} {cs : List Comp} : Written U t cs → Written U (46 :: t) cs
  | num {ds t : Text} {cs : List Comp} : ds ≠ [] → (∀ c ∈ ds, IsDigit U c) → NotFirst (IsDigit U) t → Written U t cs →
      Written U (ds ++ t) (.num (digitsValue U ds) :: cs)
  | word {ws t : Text} {cs : List Comp} : ws ≠ [] → (∀ c ∈ ws, IsLower c) → NotFirst IsLower t → Written U t cs →
      Written U (ws ++ t) (.str ws :: cs)
  | mark {ms t : Text} {cs : List Comp} : ms ≠ [] → (∀ c ∈ ms, IsMark U c) → NotFirst (IsMark U) t → Written U t cs →
      Written U (ms ++ t) (.str ms :: cs)

/-- Order of components of the same kind: by value, or as in a dictionary. -/
def CompLess : Comp → Comp → Prop
  | .num a, .num b => a < b
  | .str a, .str b => a < b
  | _, _ => False

/-- Older: the first difference decides; if there is none, the shorter. -/
def Older (a b : List Comp) : Prop :=
  (∃ x r, b = a ++ x :: r) ∨
    ∃ p x y a' b', a = p ++ x :: a' ∧ b = p ++ y :: b' ∧ CompLess x y

/-- The first difference is between a number and a text. -/
def Clash (a b : List Comp) : Prop :=
  ∃ p a' b' n t, (a = p ++ .num n :: a' ∧ b = p ++ .str t :: b') ∨ (a = p ++ .str t :: a' ∧ b = p ++ .num n :: b')

/-- Numbers with dots between them. -/
def dotted (ns : List Nat) : Text := ((ns.map decText).intersperse [46]).flatten

end Verif.Spec
