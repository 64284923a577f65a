import Verif.Model.RunnerModules
/-! # Modules of a runner -/
namespace Verif.RunnerModules.Spec
open Verif.RunnerModules

/-- Names of modules, given by position, none of them empty. -/
def Positional (u : Use) : Prop := u.kw = none ∧ ∀ m ∈ u.args, m ≠ []

/-- At most one marker at each node, and all of them positional. -/
def Simple (nodes : Nodes) : Prop := ∀ own ∈ nodes, own.length ≤ 1 ∧ ∀ u ∈ own, Positional u

/-- The nodes that have markers, nearest to the test function first: the nearest marker is `u`. -/
def Nearest (nodes : Nodes) (u : Use) : Prop :=
  ∃ below above, nodes = below ++ [u] :: above ∧ ∀ own ∈ below, own = []

/-- The file of a Python module: a name without dots, and `.py`. -/
def PyFile (file name : PyStr) : Prop := file = name ++ ".py".toList ∧ name ≠ [] ∧ '.' ∉ name

end Verif.RunnerModules.Spec
