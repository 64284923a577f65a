import Verif.Model.PytestId
/-!
# Node ids

`tests/sub/test_x.py::TestClass::test_y[1]`: directories, the file, classes and the function.
-/
namespace Verif.PytestId

/-- The parts of a node id. -/
structure NodeId where
  dirs : List Text
  /-- The file without `.py`. -/
  file : Text
  classes : List Text
  /-- The function, with the parameters in brackets. -/
  func : Text
  deriving DecidableEq

/-- Parts with a separator between them. -/
def joinWith (sep : Text) : List Text → Text
  | [] => []
  | [t] => t
  | t :: ts => t ++ sep ++ joinWith sep ts

/-- The path of the file. -/
def NodeId.path (n : NodeId) : Text := joinWith [47] (n.dirs ++ [n.file]) ++ py

/-- The function with its classes. -/
def NodeId.function (n : NodeId) : Text := joinWith [58, 58] (n.classes ++ [n.func])

/-- The node id. -/
def NodeId.text (n : NodeId) : Text := n.path ++ [58, 58] ++ n.function

/-- Names of directories, modules and classes: not empty, without slashes, dots and colons. -/
def Name (t : Text) : Prop := t ≠ [] ∧ 47 ∉ t ∧ 46 ∉ t ∧ 58 ∉ t

/-- A text that can be read again when it is followed by `::`: without `::`, and not ending in a colon. -/
def Calm (t : Text) : Prop := t ≠ [] ∧ ¬ [58, 58] <:+: t ∧ t.getLast? ≠ some 58

/-- A node id as Python modules, classes and functions give them. -/
structure NodeId.Ok (n : NodeId) : Prop where
  dirs : ∀ d ∈ n.dirs, Name d
  file : Name n.file
  classes : ∀ c ∈ n.classes, Name c
  func : Calm n.func

/-- No directory of the item merely begins with the name of the runner's directory: `tests/foox` beside `tests/foo`. -/
def Separate (r i : NodeId) : Prop := joinWith [47] r.dirs <+: joinWith [47] i.dirs → r.dirs <+: i.dirs

/-- The classes of one item are not called like the module of another. -/
def ClassesApart (i i' : NodeId) : Prop := ∀ c, i.classes.head? = some c → c ≠ i'.file

end Verif.PytestId
