import Verif.Py.Text
/-!
# Identifiers of tests reported by the pytest plugin (cocotb_tools/_pytest/_controller.py, _junitxml.py)

Texts are lists of code points: `:` is 58, `/` is 47, `.` is 46.
-/
namespace Verif.PytestId

/-- `t.partition("::")`, without the separator. -/
def partition2 : Text → Text × Text
  | 58 :: 58 :: t => ([], t)
  | c :: t => (c :: (partition2 t).1, (partition2 t).2)
  | [] => ([], [])

/-- `t.rpartition(c)[0]`. -/
def before (c : Nat) (t : Text) : Text := ((t.reverse.dropWhile (· != c)).drop 1).reverse

/-- `t.rpartition(c)[2]`. -/
def after (c : Nat) (t : Text) : Text := (t.reverse.takeWhile (· != c)).reverse

/-- `t.removeprefix(p)`. -/
def removePrefix (p t : Text) : Text := if p.isPrefixOf t then t.drop p.length else t

/-- `t.removesuffix(p)`. -/
def removeSuffix (p t : Text) : Text := if p.isSuffixOf t then t.take (t.length - p.length) else t

/-- `t.strip("/")`. -/
def stripSlash (t : Text) : Text := ((t.dropWhile (· == 47)).reverse.dropWhile (· == 47)).reverse

/-- `".py"`. -/
def py : Text := [46, 112, 121]

/-- `Controller._get_mangled_nodeid`. _controller.py:185-223. -/
def mangle (runner item : Text) : Text :=
  let r := partition2 runner
  let i := partition2 item
  if r.1 = i.1 then runner ++ [58, 58] ++ i.2
  else
    let dir := before 47 r.1
    if dir.isPrefixOf (before 47 i.1) then
      let mod := (stripSlash (removeSuffix py (removePrefix dir i.1))).map fun c => if c = 47 then 46 else c
      runner ++ [58, 58] ++ mod ++ [58, 58] ++ i.2
    else runner ++ [58, 58] ++ item

/-- `JUnitXML.pytest_runtest_logreport`: the attributes `classname` and `name`. _junitxml.py:31-41. -/
def junit (nodeid : Text) : Text × Text :=
  let address := replaceText [58, 58] [46] (replaceText (py ++ [58, 58]) [46] (replaceText [47] [46] nodeid))
  (before 46 address, after 46 address)

end Verif.PytestId
