import Verif.Model.ResultPaths
/-! # What a path in a file of results stands for -/
namespace Verif.ResultPaths.Spec
open Verif.ResultPaths

/-- The absolute path a reader finds who starts from the directory `b`. -/
def readFrom (b : List Text) (p : P) : List Text := if p.abs then p.parts else b ++ p.parts

/-- A path in a file of results, read from `b`, leads to the file that `p` stands for in the process. -/
def Leads (fs : FS) (b : List Text) (r p : P) : Prop := fs.canon (readFrom b r) = fs.canon (full fs p)

/-- A proper component of a path: not empty, without a slash. -/
def Name (x : Text) : Prop := x ≠ [] ∧ 47 ∉ x

end Verif.ResultPaths.Spec
