import Verif.Py.Dec
import Verif.Py.Format
/-!
# Text as code points

Python strings can contain surrogates, which Lean's `Char` excludes; where that matters a string is the
list of its code points.
-/
namespace Verif

/-- A Python `str`: its code points, `ord` of the characters. -/
abbrev Text := List Nat

/-- A literal. -/
def ofStr (s : PyStr) : Text := s.map Char.toNat

/-- `str(n)`. -/
def decText (n : Nat) : Text := ofStr (decStr n)

/-- `int(s)` for plain decimal numerals; everything else is taken to raise ValueError (Python also accepts
signs, blanks, underscores and other digits, none of which cocotb writes). -/
def intText (t : Text) : PyM Nat :=
  match parseDec (t.map Char.ofNat) with
  | some n => .ok n
  | none => .error .valueError

/-- `format(n, "0<w>X")`. -/
def hexText (w n : Nat) : Text := ofStr (zeroPad w (numeralLE .X n).reverse)

/-- `s.replace(old, new)` for a non-empty `old`, from a position on; `skip` characters belong to a match. -/
def replaceGo (old new : Text) : Nat → Text → Text
  | _, [] => []
  | k + 1, _ :: cs => replaceGo old new k cs
  | 0, c :: cs =>
    if old.isPrefixOf (c :: cs) then new ++ replaceGo old new (old.length - 1) cs
    else c :: replaceGo old new 0 cs

/-- `s.replace(old, new)`. -/
def replaceText (old new s : Text) : Text := replaceGo old new 0 s

theorem intText_decText (n : Nat) : intText (decText n) = .ok n := by
  unfold intText decText ofStr
  rw [List.map_map, show (Char.ofNat ∘ Char.toNat) = id from funext fun c => by simp, List.map_id, parseDec_decStr]

theorem ofStr_inj {a b : PyStr} (h : ofStr a = ofStr b) : a = b := by
  have := congrArg (List.map Char.ofNat) h
  simpa [ofStr, List.map_map, Function.comp_def] using this

end Verif
