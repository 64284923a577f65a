import Verif.Py.Text
import Verif.Py.Dict
import Verif.Model.XUnit
/-!
# Paths in files of results (src/cocotb/_xunit_reporter.py, src/cocotb_tools/_pytest/_regression.py,
src/cocotb_tools/combine_results.py)

Paths of POSIX as Python's `Path` has them: absolute or not, and a list of components. The file system is the directory
the process is in and what `resolve` makes of an absolute path (symbolic links and ".." are followed), which is any
function that changes nothing the second time. Paths are keys of the cache by their components (simplification: a text and
a `Path`, and two spellings of a path, are the same key here).
-/
namespace Verif.ResultPaths

/-- A path. -/
structure P where
  abs : Bool
  parts : List Text
  deriving DecidableEq, Repr

/-- A file system, from inside a process. -/
structure FS where
  cwd : List Text
  canon : List Text → List Text

/-- The absolute path a path stands for. -/
def full (fs : FS) (p : P) : List Text := if p.abs then p.parts else fs.cwd ++ p.parts

/-- `Path.resolve`. -/
def resolve (fs : FS) (p : P) : List Text := fs.canon (full fs p)

/-- `Path.relative_to` of absolute paths; `none` is a ValueError. -/
def relTo : List Text → List Text → Option (List Text)
  | [], q => some q
  | _ :: _, [] => none
  | b :: bs, x :: xs => if b = x then relTo bs xs else none

/-- `XUnitReporter._normalize_path`, _xunit_reporter.py:244-251; `base` is `_relative_to`, line 97. -/
def xunit (fs : FS) (base : Option (List Text)) (p : P) : P :=
  match base with
  | none => p
  | some b =>
    match relTo b (resolve fs p) with
    | some r => ⟨false, r⟩
    | none => p

/-- `XUnitReporter.normalize_path` with its cache, _xunit_reporter.py:235-242. -/
def xunitCached (fs : FS) (base : Option (List Text)) (p : P) (cache : List (P × P)) : P × List (P × P) :=
  match dictGet cache p with
  | some r => (r, cache)
  | none => (xunit fs base p, dictSet cache p (xunit fs base p))

/-- A sequence of calls, each in a directory the process is in at that time. -/
def xunitRun (canon : List Text → List Text) (base : Option (List Text)) : List (List Text × P) → List (P × P) → List P
  | [], _ => []
  | (d, p) :: xs, cache =>
    let c := xunitCached ⟨d, canon⟩ base p cache
    c.1 :: xunitRun canon base xs c.2

/-- `RegressionManager._normalize_path` of the pytest plugin, _regression.py:886-898. -/
def pytest (fs : FS) (base : List Text) (p : P) : P :=
  if p.abs then
    match relTo base (resolve fs p) with
    | some r => ⟨false, r⟩
    | none => ⟨true, resolve fs p⟩
  else p

/-- The path `combine_results` prints for a failed test, combine_results.py:133-138. -/
def combine (fs : FS) (workspace : List Text) (p : P) : P :=
  if p.abs then
    match relTo workspace (resolve fs p) with
    | some r => ⟨false, r⟩
    | none => p
  else p

/-- `str` of an absolute path. -/
def strAbs : List Text → Text
  | [] => [47]
  | [x] => 47 :: x
  | x :: y :: xs => 47 :: (x ++ strAbs (y :: xs))

/-- `str` of a path. -/
def str (p : P) : Text :=
  if p.abs then strAbs p.parts
  else if p.parts = [] then [46] else (strAbs p.parts).drop 1

/-- `_relative_to_str`, _xunit_reporter.py:98. -/
def baseStr (b : List Text) : Text := strAbs b ++ [47]

/-- The paths in a text, _xunit_reporter.py:297-298. -/
def text (b : List Text) (t : Text) : Text := replaceText (baseStr b) [] t

end Verif.ResultPaths
