import Verif.Model.Combine
import Verif.Spec.XUnit
/-!
# Specification: result files below directories
-/
namespace Verif.CombineSpec
open Verif XUnit Combine

/-- The names in the entries. -/
def names : Entries → List Text
  | .nil => []
  | .cons m _ es => m :: names es

mutual
/-- No directory has two entries of the same name. -/
def Proper : Node → Prop
  | .dir es => (names es).Nodup ∧ ProperAll es
  | _ => True
/-- The same for all entries. -/
def ProperAll : Entries → Prop
  | .nil => True
  | .cons _ n es => Proper n ∧ ProperAll es
end

/-- A file with a name that matches, below one of the directories. -/
def Wanted (hit : Text → Bool) (root : Node) (dirs : List Path) (p : Path) (doc : Option Elem) : Prop :=
  root.at p = some (.file doc) ∧ ∃ d ∈ dirs, ∃ q name, p = d ++ q ++ [name] ∧ hit name = true

end Verif.CombineSpec
