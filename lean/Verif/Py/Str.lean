import Verif.Py.Text
import Verif.Py.Basic
/-!
# `str.strip`, `str.lower`, `str.split` and `int(str)`
-/
namespace Verif

/-- `str.isspace` of a character, the characters `str.strip()` removes. -/
def isBlank (c : Nat) : Bool :=
  (9 ≤ c && c ≤ 13) || (28 ≤ c && c ≤ 32) || c == 133 || c == 160 || c == 5760 || (8192 ≤ c && c ≤ 8202) ||
    c == 8232 || c == 8233 || c == 8239 || c == 8287 || c == 12288

/-- `s.strip()`. -/
def stripText (t : Text) : Text := ((t.dropWhile isBlank).reverse.dropWhile isBlank).reverse

/-- What the Unicode tables say about characters beyond ASCII; a parameter. -/
structure Unicode where
  /-- `str.lower` of one character. -/
  lower : Nat → Text
  /-- The value of a decimal digit. -/
  digit : Nat → Option Nat

/-- The only facts used about `str.lower` beyond ASCII: the result contains a character beyond ASCII, or is `k` (the
Kelvin sign). -/
def Unicode.Ok (U : Unicode) : Prop := ∀ c, 128 ≤ c → U.lower c = [107] ∨ ∃ d ∈ U.lower c, 128 ≤ d

/-- `str.lower` of one character. -/
def lowerChar (U : Unicode) (c : Nat) : Text :=
  if c < 128 then (if 65 ≤ c ∧ c ≤ 90 then [c + 32] else [c]) else U.lower c

/-- `s.lower()`; the rule for a final sigma is left out (both sigmas are beyond ASCII). -/
def lowerText (U : Unicode) (t : Text) : Text := (t.map (lowerChar U)).flatten

/-- `s.split(sep)` for a non-empty `sep`; `skip` characters belong to a separator. -/
def splitGo (sep : Text) : Nat → Text → List Text
  | _, [] => [[]]
  | k + 1, _ :: cs => splitGo sep k cs
  | 0, c :: cs =>
    if sep.isPrefixOf (c :: cs) then [] :: splitGo sep (sep.length - 1) cs
    else
      match splitGo sep 0 cs with
      | [] => [[c]]
      | q :: qs => (c :: q) :: qs

/-- `s.split(sep)`: an empty separator raises ValueError. -/
def splitText (sep t : Text) : PyM (List Text) := if sep = [] then .error .valueError else .ok (splitGo sep 0 t)

/-- `s.split(c, 1)` for a text that contains `c`. -/
def splitOnce (c : Nat) (t : Text) : Text × Text := (t.takeWhile (· != c), (t.dropWhile (· != c)).drop 1)

/-- The value of a decimal digit. -/
def digitOf (U : Unicode) (c : Nat) : Option Nat :=
  if c < 128 then (if 48 ≤ c ∧ c ≤ 57 then some (c - 48) else none) else U.digit c

/-- The digits of `int(s)`: single underscores may stand between digits. -/
def intDigits (U : Unicode) : Bool → Nat → Text → Option Nat
  | need, acc, [] => if need then none else some acc
  | need, acc, c :: cs =>
    match digitOf U c with
    | some d => intDigits U false (10 * acc + d) cs
    | none => if c = 95 ∧ need = false then intDigits U true acc cs else none

/-- `int(s)`. -/
def intOf (U : Unicode) (t : Text) : PyM Int :=
  match stripText t with
  | [] => .error .valueError
  | c :: cs =>
    if c = 45 then
      match intDigits U true 0 cs with
      | some n => .ok (-(n : Int))
      | none => .error .valueError
    else
      match intDigits U true 0 (if c = 43 then cs else c :: cs) with
      | some n => .ok (n : Int)
      | none => .error .valueError

end Verif
