import Verif.Model.Runner
/-!
# The language of the toplevel under pytest (src/cocotb_tools/_pytest/plugin.py, hdl.py)
-/
namespace Verif.HdlLang
open Verif.Runner

/-- Python's truth of a language. -/
def isSet : Option String → Bool
  | none => false
  | some l => l != ""

/-- `self.toplevel_lang` after `HDL.__init__`, from the option `--cocotb-toplevel-lang`. hdl.py:151, 183-188. -/
def initLang (sim : Sim) (opt : String) : Option String :=
  if opt = "" ∨ opt = "auto" then
    match sim.interfaces with
    | [l] => some l
    | _ => none
  else some opt

/-- The fixture `hdl_session`: its language, and what its runner built (its runner has `_sources` after a build only). -/
structure Session where
  lang : Option String
  built : Option Build

/-- The language of the fixture `hdl` for one test, `inst` being the one it was made with. plugin.py:588-600. -/
def hdlFixture (sim : Sim) (s : Session) (inst : Option String) : PyM (Option String) :=
  match isSet s.lang, s.built with
  | false, some b =>
    match checkLang sim b s.lang with
    | .ok l => .ok (some l)
    | .error e => .error e
  | _, _ => .ok inst

/-- The language that `HDL.test(toplevel_lang=given)` simulates with: hdl.py:419 and `_check_hdl_toplevel_lang`, runner.py:236-274. A runner
without a build has no lists of sources, so that looking for one raises AttributeError. -/
def testLang (sim : Sim) (inst : Option String) (own : Option Build) (given : Option String) : PyM String :=
  match (if isSet given then given else inst), own with
  | some l, _ => if l ∈ sim.interfaces then .ok l else .error .valueError
  | none, some b => checkLang sim b none
  | none, none => .error .attributeError

/-- A test: its fixture, a build of its own or not, and `test`. -/
def simulated (sim : Sim) (opt : String) (s : Session) (own : Option Build) (given : Option String) : PyM String :=
  match hdlFixture sim s (initLang sim opt) with
  | .error e => .error e
  | .ok inst => testLang sim inst own given

end Verif.HdlLang
