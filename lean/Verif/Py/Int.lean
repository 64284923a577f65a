import Verif.Py.Basic
/-!
# Python integers: parsing base-2 numerals and formatting

Strings are lists of characters.
-/
namespace Verif

abbrev PyStr := List Char

/-- Value of a binary digit. -/
def binDigit : Char → Option Nat
  | '0' => some 0
  | '1' => some 1
  | _ => none

/-- Digits of a base-2 numeral, most significant first. -/
def parseBinDigits : PyStr → Nat → Option Nat
  | [], acc => some acc
  | c :: cs, acc => match binDigit c with
    | some d => parseBinDigits cs (2 * acc + d)
    | none => none

/-- At least one digit is required. -/
def parseBinNat (s : PyStr) : Option Nat :=
  match s with
  | [] => none
  | _ => parseBinDigits s 0

/-- Python `int(s, 2)`: an optional sign followed by at least one binary digit, else `ValueError`.
Simplification: surrounding blanks, the `0b` prefix and `_` separators are not accepted here; the
modelled callers only pass strings over `UX01ZWLH-`, where none of these can occur. -/
def pyIntBase2 (s : PyStr) : PyM Int :=
  match s with
  | '-' :: t => match parseBinNat t with
    | some n => .ok (-(n : Int))
    | none => .error .valueError
  | '+' :: t => match parseBinNat t with
    | some n => .ok n
    | none => .error .valueError
  | _ => match parseBinNat s with
    | some n => .ok n
    | none => .error .valueError

/-- The digit character of `b`. -/
def bitChar (b : Bool) : Char := if b then '1' else '0'

/-- Binary digits of `n`, most significant first, no leading zeros (`""` for 0). -/
def binDigitsAux (n : Nat) : PyStr :=
  if _h : n = 0 then [] else binDigitsAux (n / 2) ++ [bitChar (n % 2 = 1)]
termination_by n
decreasing_by omega

/-- Python `format(n, "b")` for `n ≥ 0`. -/
def binDigits (n : Nat) : PyStr := if n = 0 then ['0'] else binDigitsAux n

/-- Left-pad with zeros to width `w` (Python `0w` format option on an unsigned numeral). -/
def zeroPad (w : Nat) (s : PyStr) : PyStr := List.replicate (w - s.length) '0' ++ s

/-- Python `format(v, f"0{w}b")`: the sign counts towards the width and stays in front. -/
def pyFormatBin (w : Nat) (v : Int) : PyStr :=
  if v < 0 then '-' :: zeroPad (w - 1) (binDigits v.natAbs) else zeroPad w (binDigits v.toNat)

end Verif
