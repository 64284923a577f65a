import Verif.Model.XUnit
/-!
# The command combine_results on files and directories (src/cocotb_tools/combine_results.py)

Paths are relative to the working directory and have no `..`; there are no symbolic links. What the files contain is given as
XML elements (`Model/XUnit`).
-/
namespace Verif.Combine
open Verif XUnit

mutual
/-- What a name stands for in the file system: a file, with its document unless it is not XML; a directory; or something else. -/
inductive Node where
  | file (doc : Option Elem)
  | dir (es : Entries)
  | other
/-- The entries of a directory, in the order `iterdir` gives them. -/
inductive Entries where
  | nil
  | cons (name : Text) (n : Node) (es : Entries)
end

/-- A path. -/
abbrev Path := List Text

/-- The entry of this name. -/
def Entries.find (name : Text) : Entries → Option Node
  | .nil => none
  | .cons m n es => if m = name then some n else es.find name

/-- What is at the path. -/
def Node.at (n : Node) : Path → Option Node
  | [] => some n
  | name :: p => match n with
    | .dir es => match es.find name with
      | some m => m.at p
      | none => none
    | _ => none

mutual
/-- `_find_all` for what `iterdir` has found under the name. combine_results.py:20-24. -/
def findOne (hit : Text → Bool) (here : Path) (name : Text) : Node → List (Path × Option Elem)
  | .file doc => if hit name then [(here ++ [name], doc)] else []
  | .dir es => findIn hit (here ++ [name]) es
  | .other => []
/-- The loop of `_find_all` over `iterdir`. combine_results.py:19-24. -/
def findIn (hit : Text → Bool) (here : Path) : Entries → List (Path × Option Elem)
  | .nil => []
  | .cons name n es => findOne hit here name n ++ findIn hit here es
end

/-- `_find_all`; `none` if `iterdir` raises, because the path is no directory. -/
def findAll (hit : Text → Bool) (root : Node) (p : Path) : Option (List (Path × Option Elem)) :=
  match root.at p with
  | some (.dir es) => some (findIn hit p es)
  | _ => none

/-- All directories of the command line. combine_results.py:91-94. -/
def findDirs (hit : Text → Bool) (root : Node) : List Path → Option (List (Path × Option Elem))
  | [] => some []
  | p :: ps => match findAll hit root p with
    | none => none
    | some l => match findDirs hit root ps with
      | none => none
      | some l' => some (l ++ l')

/-- `ET.parse` of all files. combine_results.py:97. -/
def parseAll : List (Path × Option Elem) → Option (List Elem)
  | [] => some []
  | (_, none) :: _ => none
  | (_, some d) :: l => (parseAll l).map (d :: ·)

/-- Entries with a file written. -/
def Entries.put (name : Text) (doc : Elem) : Entries → Option Entries
  | .nil => some (.cons name (.file (some doc)) .nil)
  | .cons m n es =>
    if m = name then match n with
      | .file _ => some (.cons m (.file (some doc)) es)
      | _ => none
    else match es.put name doc with
      | some es' => some (.cons m n es')
      | none => none

/-- Entries with one of them replaced. -/
def Entries.set (name : Text) (n' : Node) : Entries → Entries
  | .nil => .nil
  | .cons m n es => if m = name then .cons m n' es else .cons m n (es.set name n')

/-- `ElementTree.write`: the file is replaced, or added to the directory; `none` if there is no such directory or the
name stands for something that is no file. combine_results.py:154. -/
def Node.write (doc : Elem) : Path → Node → Option Node
  | [name], .dir es => (es.put name doc).map .dir
  | name :: p, .dir es => match es.find name with
    | some m => (Node.write doc p m).map fun m' => .dir (es.set name m')
    | none => none
  | _, _ => none

/-- What the command does: the files afterwards, the document and the exit code; `none` if it ends with an exception or a
message about the arguments. combine_results.py:82-155. -/
def main (hit : Text → Bool) (title : Text) (dirs : List Path) (out : Path) (root : Node) : Option (Node × Elem × Nat) :=
  match findDirs hit root dirs with
  | none => none
  | some files => match parseAll files with
    | none => none
    | some docs => match Node.write (combine title docs).1 out root with
      | none => none
      | some root' => some (root', combine title docs)

/-- `re.match(r"results.*\.xml", name)` for a name without line breaks: the default of `--input-filename`.
combine_results.py:52-56. -/
def defaultHit (name : Text) : Bool :=
  (ofStr "results".toList).isPrefixOf name && (List.range name.length).any fun k => decide (7 ≤ k) && (ofStr ".xml".toList).isPrefixOf (name.drop k)

/-- The default of `--output-file`. combine_results.py:57-62. -/
def defaultOut : Path := [ofStr "combined_results.xml".toList]

end Verif.Combine
