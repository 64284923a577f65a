import Verif.Py.Str
/-!
# What environment variables and plusargs mean

Independent of the model: blanks around a text, spellings of a word, numerals and plus arguments.
-/
namespace Verif.EnvSpec
open Verif

/-- `t` is `v` without the blanks around it. -/
def Trimmed (v t : Text) : Prop :=
  ∃ a b, v = a ++ t ++ b ∧ (∀ c ∈ a, isBlank c = true) ∧ (∀ c ∈ b, isBlank c = true) ∧
    (∀ c, t.head? = some c → isBlank c = false) ∧ (∀ c, t.getLast? = some c → isBlank c = false)

/-- `d` is the letter `c` or its capital. -/
def SameLetter (c d : Nat) : Prop := d = c ∨ (97 ≤ c ∧ c ≤ 122 ∧ d + 32 = c)

/-- `t` spells the word `w`, in any case. -/
def Spells : (w t : Text) → Prop
  | [], [] => True
  | c :: w, d :: t => SameLetter c d ∧ Spells w t
  | _, _ => False

/-- The words for a value, as documented. -/
def words : Bool → List String
  | true => ["1", "yes", "y", "on", "true", "enable"]
  | false => ["0", "no", "n", "off", "false", "disable"]

/-- `t` is a documented spelling of `b`. -/
def Means (b : Bool) (t : Text) : Prop := ∃ w ∈ words b, Spells (ofStr w.toList) t

/-- The number written with these decimal digits. -/
def positional (ds : List Nat) : Nat := ds.foldl (fun n d => 10 * n + d) 0

/-- `t` writes the number `n` in decimal digits, possibly grouped by single underscores: the groups are `gs`. -/
def Writes (t : Text) (n : Nat) : Prop :=
  ∃ gs : List (List Nat), gs ≠ [] ∧ (∀ g ∈ gs, g ≠ [] ∧ ∀ d ∈ g, d < 10) ∧
    t = ((gs.map fun g => g.map (48 + ·)).intersperse [95]).flatten ∧ n = positional gs.flatten

/-- `t` writes the integer `v`: an optional sign and a number. -/
def WritesInt (t : Text) (v : Int) : Prop :=
  ∃ n, (Writes t n ∧ v = n) ∨ (∃ r, t = 43 :: r ∧ Writes r n ∧ v = n) ∨ (∃ r, t = 45 :: r ∧ Writes r n ∧ v = -(n : Int))

/-- A plus argument with its name and value: `+name=value`, or `+name` for True; the name ends at the first `=`. -/
inductive Plus : (arg name : Text) → Option Text → Prop
  | flag (name : Text) : 61 ∉ name → Plus (43 :: name) name none
  | value (name v : Text) : 61 ∉ name → Plus (43 :: (name ++ 61 :: v)) name (some v)

end Verif.EnvSpec
