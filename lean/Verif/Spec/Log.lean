import Verif.Model.Log
/-!
# Texts for a terminal

A text for a terminal consists of characters and of codes that are not shown (ECMA-48): ESC and one character, or ESC `[`,
parameters, intermediate characters and a final character.
-/
namespace Verif.Log

/-- A character or a code. -/
inductive Tok where
  | char (c : Nat)
  /-- ESC and one character. -/
  | short (c : Nat)
  /-- ESC `[`, parameters, intermediate characters, final character. -/
  | csi (params inters : Text) (final : Nat)

/-- Characters are not ESC; the characters of codes are from the ranges of the standard. -/
def Tok.Ok : Tok → Prop
  | .char c => c ≠ 27
  | .short c => 64 ≤ c ∧ c ≤ 95 ∧ c ≠ 91
  | .csi ps is f => (∀ c ∈ ps, 48 ≤ c ∧ c ≤ 63) ∧ (∀ c ∈ is, 32 ≤ c ∧ c ≤ 47) ∧ 64 ≤ f ∧ f ≤ 126

/-- As sent to the terminal. -/
def Tok.text : Tok → Text
  | .char c => [c]
  | .short c => [27, c]
  | .csi ps is f => 27 :: 91 :: (ps ++ is ++ [f])

/-- As seen. -/
def Tok.seen : Tok → Text
  | .char c => [c]
  | _ => []

/-- `t` is a text for a terminal that shows `v`. -/
def Shows (t v : Text) : Prop := ∃ ts : List Tok, (∀ k ∈ ts, k.Ok) ∧ t = ts.flatMap Tok.text ∧ v = ts.flatMap Tok.seen

/-- Lines are only ended by line feeds. -/
def PlainLines (t : Text) : Prop := ∀ c ∈ t, isBreak c → c = 10

end Verif.Log
