import Verif.Py.Int
/-!
# Python `format(int, spec)` for the specs `[#]0<width>[_,]<b|o|x|X|d>`

The zero-padding and grouping algorithm follows CPython's `InsertThousandsGrouping`
(Objects/stringlib/localeutil.h / Objects/unicodeobject.c): digit groups are cut from the right; each
group has `min(group, max(remaining digits, remaining min width, 1))` characters, filled up with
zeros; the loop stops when neither digits nor minimum width remain; the minimum width excludes sign
and prefix. This is runtime behaviour, part of the trusted base.
-/
namespace Verif

/-- Presentation types. -/
inductive FmtTy where
  | b | o | x | X | d
deriving DecidableEq, Repr

def FmtTy.base : FmtTy → Nat
  | .b => 2
  | .o => 8
  | .x => 16
  | .X => 16
  | .d => 10

/-- The `#` prefix; none for `d`. -/
def FmtTy.pre : FmtTy → PyStr
  | .b => "0b".toList
  | .o => "0o".toList
  | .x => "0x".toList
  | .X => "0X".toList
  | .d => []

/-- Group length for `_` (for `d` also `,`). -/
def FmtTy.group : FmtTy → Nat
  | .d => 3
  | _ => 4

/-- Digit characters of Python numerals. -/
def digitChar (upper : Bool) (k : Nat) : Char :=
  if k < 10 then Char.ofNat (48 + k) else if upper then Char.ofNat (55 + k) else Char.ofNat (87 + k)

/-- Digits in base `b`, least significant first, no leading zeros (none for 0). -/
def digitsLE (b n : Nat) : List Nat :=
  if _h : n = 0 ∨ b < 2 then [] else n % b :: digitsLE b (n / b)
termination_by n
decreasing_by
  exact Nat.div_lt_self (by omega) (by omega)

/-- Digit characters of the numeral, least significant first (`"0"` for 0). -/
def numeralLE (ty : FmtTy) (n : Nat) : PyStr :=
  if n = 0 then ['0'] else (digitsLE ty.base n).map (digitChar (ty == .X))

/-- Zero-fill and group, on characters least significant first. `g + 1` is the group length. -/
def groupLE (g : Nat) (sep : Char) (rd : PyStr) (minw : Nat) : PyStr :=
  let len := min (g + 1) (max (max rd.length minw) 1)
  let chunk := rd.take len ++ List.replicate (len - rd.length) '0'
  let rest := rd.drop len
  let minw' := minw - len
  if _h : rest = [] ∧ minw' = 0 then chunk else chunk ++ sep :: groupLE g sep rest (minw' - 1)
termination_by rd.length + minw
decreasing_by
  simp only [rest, minw', List.length_drop] at _h ⊢
  have hl : 1 ≤ len := by simp only [len]; omega
  by_cases hr : rd = []
  · subst hr
    simp at _h ⊢
    omega
  · have : 1 ≤ rd.length := by
      cases rd
      · exact absurd rfl hr
      · simp
    omega

/-- `format(v, f"{'#' if alt}0{width}{sep}{ty}")`; `,` is only allowed with `d`. -/
def pyFormatInt (alt : Bool) (width : Nat) (sep : Option Char) (ty : FmtTy) (v : Int) : PyM PyStr :=
  if sep = some ',' ∧ ty ≠ .d then .error .valueError
  else
    let sign : PyStr := if v < 0 then ['-'] else []
    let pre := if alt then ty.pre else []
    let rd := numeralLE ty v.natAbs
    let minw := width - (sign.length + pre.length)
    let body := match sep with
      | none => rd ++ List.replicate (minw - rd.length) '0'
      | some c => groupLE (ty.group - 1) c rd minw
    .ok (sign ++ pre ++ body.reverse)

end Verif
