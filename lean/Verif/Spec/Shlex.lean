import Verif.Py.Text
/-!
# Words of a command line

The grammar of a POSIX shell without expansions: words between blanks; a word is made of plain characters, characters
after a backslash, and quoted parts.
-/
namespace Verif.Spec

/-- Blank, tab, carriage return, line feed. -/
def ShellBlank (c : Nat) : Prop := c = 32 ∨ c = 9 ∨ c = 13 ∨ c = 10

/-- What stands between double quotes: a backslash quotes `"` and itself only. -/
inductive InDouble : Text → Text → Prop
  | nil : InDouble [] []
  | plain {c : Nat} {t v : Text} : c ≠ 34 → c ≠ 92 → InDouble t v → InDouble (c :: t) (c :: v)
  | esc {c : Nat} {t v : Text} : c = 34 ∨ c = 92 → InDouble t v → InDouble (92 :: c :: t) (c :: v)
  | other {c : Nat} {t v : Text} : c ≠ 34 → c ≠ 92 → InDouble t v → InDouble (92 :: c :: t) (92 :: c :: v)

/-- A part of a word and what it stands for. -/
inductive Part : Text → Text → Prop
  | plain {c : Nat} : ¬ ShellBlank c → c ≠ 34 → c ≠ 39 → c ≠ 92 → Part [c] [c]
  | esc (c : Nat) : Part [92, c] [c]
  | single {t : Text} : 39 ∉ t → Part (39 :: t ++ [39]) t
  | double {t v : Text} : InDouble t v → Part (34 :: t ++ [34]) v

/-- One or more parts. -/
inductive Word : Text → Text → Prop
  | one {t v : Text} : Part t v → Word t v
  | more {t v t' v' : Text} : Part t v → Word t' v' → Word (t ++ t') (v ++ v')

/-- A command line and its words. -/
inductive Command : Text → List Text → Prop
  | nil : Command [] []
  | blank {c : Nat} {t : Text} {ws : List Text} : ShellBlank c → Command t ws → Command (c :: t) ws
  | last {t v : Text} : Word t v → Command t [v]
  | word {t v : Text} {c : Nat} {t' : Text} {ws : List Text} : Word t v → ShellBlank c → Command t' ws → Command (t ++ c :: t') (v :: ws)

end Verif.Spec
