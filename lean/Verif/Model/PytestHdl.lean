import Verif.Model.PytestOpt
import Verif.Model.PytestId
/-!
# The fixture `hdl` of the pytest plugin

cocotb_tools/_pytest/hdl.py, and the conversions of plugin.py: options, markers and arguments become the arguments of
`Runner.build` and `Runner.test`. Values of defines, parameters and variables are texts; paths are texts; sources are texts.
-/
namespace Verif.PytestHdl
open Verif Env Runner

/-- A dictionary. -/
abbrev Dict := List (Text × Text)

/-- A list or a tuple. -/
structure Seq where
  tuple : Bool
  items : List Text
  deriving DecidableEq, Repr

/-- `random seed: str | int`. -/
inductive Seed where
  | int (n : Int)
  | str (t : Text)
  deriving DecidableEq, Repr

/-! ### Conversions -/

/-- `_to_timescale`. plugin.py:74-88. 47 is the slash. -/
def toTimescale (value : Text) : Text × Text :=
  let unit := stripText (splitOnce 47 value).1
  let precision := stripText (splitOnce 47 value).2
  (unit, orText precision unit)

/-- `_to_dict`. plugin.py:91-106. 61 is `=`. -/
def toDict (items : List Text) : Dict := items.foldl (fun d i => dictSet d (splitOnce 61 i).1 (splitOnce 61 i).2) []

/-- `d | e`, `d.update(e)`. -/
def merge (d e : Dict) : Dict := e.foldl (fun d p => dictSet d p.1 p.2) d

/-- The options that are used here, as `pytest_configure` leaves them. plugin.py:643-662. -/
structure Options where
  library : Text
  always : Bool
  clean : Bool
  verbose : Bool
  timescale : Option (Text × Text)
  waves : Bool
  gui : Bool
  toplevelLibrary : Text
  toplevelLang : Text
  gpiInterfaces : List Text
  seed : Int
  buildArgs : List Text
  includes : List Text
  elabArgs : List Text
  testArgs : List Text
  plusargs : List Text
  preCmd : List Text
  parameters : Dict
  defines : Dict
  env : Dict

/-- The conversions of `pytest_configure`. plugin.py:649-662. -/
def convert (vals : List (Text × PytestOpt.Val)) : Options where
  library := PytestOpt.textOf vals "cocotb_library"
  always := PytestOpt.flagOf vals "cocotb_always"
  clean := PytestOpt.flagOf vals "cocotb_clean"
  verbose := PytestOpt.flagOf vals "cocotb_verbose"
  timescale :=
    if PytestOpt.textOf vals "cocotb_timescale" = [] then none else some (toTimescale (PytestOpt.textOf vals "cocotb_timescale"))
  waves := PytestOpt.flagOf vals "cocotb_waves"
  gui := PytestOpt.flagOf vals "cocotb_gui"
  toplevelLibrary := PytestOpt.textOf vals "cocotb_toplevel_library"
  toplevelLang := PytestOpt.textOf vals "cocotb_toplevel_lang"
  gpiInterfaces := PytestOpt.listOf vals "cocotb_gpi_interfaces"
  seed := PytestOpt.intVal vals "cocotb_seed"
  buildArgs := PytestOpt.listOf vals "cocotb_build_args"
  includes := PytestOpt.listOf vals "cocotb_includes"
  elabArgs := PytestOpt.listOf vals "cocotb_elab_args"
  testArgs := PytestOpt.listOf vals "cocotb_test_args"
  plusargs := PytestOpt.listOf vals "cocotb_plusargs"
  preCmd := PytestOpt.listOf vals "cocotb_pre_cmd"
  parameters := toDict (PytestOpt.listOf vals "cocotb_parameters")
  defines := toDict (PytestOpt.listOf vals "cocotb_defines")
  env := toDict (PytestOpt.listOf vals "cocotb_env")

/-! ### The object -/

/-- The attributes of `HDL`. hdl.py:91-178. -/
structure Hdl where
  library : Text
  sources : List Text
  includes : Seq
  defines : Dict
  parameters : Dict
  buildArgs : Seq
  toplevel : Text
  always : Bool
  clean : Bool
  verbose : Bool
  timescale : Option (Text × Text)
  waves : Bool
  buildDir : Text
  testModule : List Text
  toplevelLibrary : Text
  toplevelLang : Option Text
  gpiInterfaces : List Text
  seed : Seed
  elabArgs : Seq
  testArgs : Seq
  plusargs : Seq
  env : Dict
  gui : Bool
  preCmd : Seq
  testDir : Text

/-- A marker with its arguments. mark.py. -/
inductive Marker where
  | runner (modules : List Text)
  | sources (args : List Text)
  | defines (kw : Dict)
  | parameters (kw : Dict)
  | env (kw : Dict)
  | includes (args : List Text)
  | plusargs (args : List Text)
  | timescale (unit : Text) (precision : Option Text)
  | seed (s : Seed)
  | buildArgs (args : List Text)
  | elabArgs (args : List Text)
  | testArgs (args : List Text)
  | preCmd (args : List Text)
  | library (name : Text)
  | waves (b : Bool)
  | verbose (b : Bool)
  | always (b : Bool)
  | clean (b : Bool)
  deriving DecidableEq, Repr

/-- `l.extend(args)`. -/
def Seq.extend (s : Seq) (args : List Text) : Seq := { s with items := s.items ++ args }

/-- The methods `_mark_cocotb_…`. hdl.py:459-513. Without a first argument the other test modules are an empty list. -/
def Hdl.mark (h : Hdl) : Marker → Hdl
  | .runner ms => { h with testModule := if ms.headD [] = [] then ms.tail else ms }
  | .sources as => { h with sources := h.sources ++ as }
  | .defines kw => { h with defines := merge h.defines kw }
  | .parameters kw => { h with parameters := merge h.parameters kw }
  | .env kw => { h with env := merge h.env kw }
  | .includes as => { h with includes := h.includes.extend as }
  | .plusargs as => { h with plusargs := h.plusargs.extend as }
  | .timescale u p => { h with timescale := some (u, orText (p.getD []) u) }
  | .seed s => { h with seed := s }
  | .buildArgs as => { h with buildArgs := h.buildArgs.extend as }
  | .elabArgs as => { h with elabArgs := h.elabArgs.extend as }
  | .testArgs as => { h with testArgs := h.testArgs.extend as }
  | .preCmd as => { h with preCmd := h.preCmd.extend as }
  | .library n => { h with library := n }
  | .waves b => { h with waves := b }
  | .verbose b => { h with verbose := b }
  | .always b => { h with always := b }
  | .clean b => { h with clean := b }

/-- A node of pytest's tree: its own markers. -/
abbrev Node := List Marker

/-- `_apply_markers`: `parents` is the node, its parent, and so on up to the session. hdl.py:438-457. -/
def Hdl.applyMarkers (h : Hdl) (parents : List Node) : Hdl := parents.reverse.foldl (fun h n => n.foldl Hdl.mark h) h

/-- What the fixture is requested for. -/
structure Request where
  session : Bool
  fileName : Text
  dir : Text
  parents : List Node

/-- The default of `test_module` and `toplevel`. hdl.py:190-203. -/
def Hdl.defaults (h : Hdl) (r : Request) : Hdl :=
  let h := if h.testModule = [] ∧ ¬ r.session then { h with testModule := [(splitOnce 46 r.fileName).1] } else h
  match h.testModule with
  | [] => h
  | m :: _ =>
    if h.toplevel = [] then
      { h with toplevel :=
          if (lit "test_").isPrefixOf m then PytestId.removePrefix (lit "test_") m
          else if (lit "_test").isSuffixOf m then PytestId.removeSuffix (lit "_test") m
          else m }
    else h

/-- `HDL.__init__`; `langs` are the languages the simulator supports. hdl.py:66-203. -/
def Hdl.new (o : Options) (langs : List Text) (r : Request) : Hdl :=
  let h : Hdl := {
    library := o.library, sources := [], includes := ⟨false, []⟩, defines := [], parameters := [], buildArgs := ⟨false, []⟩,
    toplevel := [], always := o.always, clean := o.clean, verbose := o.verbose, timescale := o.timescale, waves := o.waves,
    buildDir := r.dir, testModule := [], toplevelLibrary := o.toplevelLibrary, toplevelLang := some o.toplevelLang,
    gpiInterfaces := o.gpiInterfaces, seed := .int o.seed, elabArgs := ⟨false, []⟩, testArgs := ⟨false, []⟩,
    plusargs := ⟨false, []⟩, env := [], gui := o.gui, preCmd := ⟨false, []⟩, testDir := r.dir }
  let h := h.applyMarkers r.parents
  let h := { h with toplevelLang :=
    if o.toplevelLang = [] ∨ o.toplevelLang = lit "auto" then (match langs with | [l] => some l | _ => none) else some o.toplevelLang }
  h.defaults r

/-! ### `build` and `test` -/

/-- `a or b` for an argument that may be missing. -/
def orArg {α : Type} (falsy : α → Bool) (arg : Option α) (attr : α) : α :=
  match arg with
  | some a => if falsy a then attr else a
  | none => attr

/-- Texts, lists and dictionaries are false if they are empty. -/
def emptyList {α : Type} (l : List α) : Bool := l.isEmpty
@[inherit_doc emptyList] def emptySeq (s : Seq) : Bool := s.items.isEmpty

/-- `s + l` for a list `l`: a tuple and a list cannot be added. -/
def Seq.plus (s : Seq) (l : List Text) : PyM (List Text) := if s.tuple then .error .typeError else .ok (s.items ++ l)

/-- A seed is false if it is 0 or empty. -/
def falsySeed : Seed → Bool
  | .int n => n == 0
  | .str t => t.isEmpty

/-- The arguments of `build`. -/
structure BuildArgs where
  library : Option Text := none
  sources : Option (List Text) := none
  includes : Option Seq := none
  defines : Option Dict := none
  parameters : Option Dict := none
  buildArgs : Option Seq := none
  toplevel : Option Text := none
  always : Bool := false
  clean : Bool := false
  verbose : Bool := false
  timescale : Option (Text × Text) := none
  waves : Bool := false
  buildDir : Option Text := none
  cwd : Option Text := none

/-- The arguments of `Runner.build`. -/
structure BuildCall where
  library : Text
  sources : List Text
  includes : List Text
  defines : Dict
  parameters : Dict
  buildArgs : List Text
  toplevel : Option Text
  always : Bool
  clean : Bool
  verbose : Bool
  timescale : Option (Text × Text)
  waves : Bool
  buildDir : Text
  cwd : Text
  deriving DecidableEq, Repr

/-- `HDL.build`, not by a worker of xdist in the scope of the session. hdl.py:277-314. -/
def Hdl.build (h : Hdl) (o : Options) (a : BuildArgs) : PyM BuildCall := do
  let buildDir := orArg emptyList a.buildDir h.buildDir
  let buildArgs ← (orArg emptySeq a.buildArgs h.buildArgs).plus o.buildArgs
  let includes ← (orArg emptySeq a.includes h.includes).plus o.includes
  return {
    library := orArg emptyList a.library h.library
    sources := orArg emptyList a.sources h.sources
    includes := includes
    defines := merge (orArg emptyList a.defines h.defines) o.defines
    parameters := merge (orArg emptyList a.parameters h.parameters) o.parameters
    buildArgs := buildArgs
    toplevel := if orArg emptyList a.toplevel h.toplevel = [] then none else some (orArg emptyList a.toplevel h.toplevel)
    always := a.always || h.always
    clean := a.clean || h.clean
    verbose := a.verbose || h.verbose
    timescale := a.timescale.or h.timescale
    waves := a.waves || h.waves
    buildDir := buildDir
    cwd := orArg emptyList a.cwd buildDir }

/-- The arguments of `test`. -/
structure TestArgs where
  testModule : Option (List Text) := none
  toplevel : Option Text := none
  toplevelLibrary : Option Text := none
  toplevelLang : Option Text := none
  gpiInterfaces : Option (List Text) := none
  parameters : Option Dict := none
  seed : Option Seed := none
  elabArgs : Option Seq := none
  testArgs : Option Seq := none
  plusargs : Option Seq := none
  env : Option Dict := none
  gui : Bool := false
  waves : Bool := false
  verbose : Bool := false
  preCmd : Option Seq := none
  timescale : Option (Text × Text) := none
  buildDir : Option Text := none
  testDir : Option Text := none

/-- The arguments of `Runner.test`. -/
structure TestCall where
  testModule : List Text
  toplevel : Text
  toplevelLibrary : Text
  toplevelLang : Option Text
  gpiInterfaces : Option (List Text)
  parameters : Option Dict
  seed : Seed
  elabArgs : List Text
  testArgs : List Text
  plusargs : List Text
  env : Dict
  gui : Bool
  waves : Bool
  verbose : Bool
  preCmd : Option (List Text)
  timescale : Option (Text × Text)
  buildDir : Text
  testDir : Text
  resultsXml : Text
  deriving DecidableEq, Repr

/-- `HDL.test`. hdl.py:397-436. -/
def Hdl.test (h : Hdl) (o : Options) (xcelium : Bool) (a : TestArgs) : PyM TestCall := do
  let buildDir := orArg emptyList a.buildDir h.buildDir
  let testDir := orArg emptyList a.testDir h.testDir
  let elabArgs ← (orArg emptySeq a.elabArgs h.elabArgs).plus o.elabArgs
  let testArgs ← (orArg emptySeq a.testArgs h.testArgs).plus o.testArgs
  let plusargs ← (orArg emptySeq a.plusargs h.plusargs).plus o.plusargs
  let preCmd ← (orArg emptySeq a.preCmd h.preCmd).plus o.preCmd
  let parameters := merge (orArg emptyList a.parameters h.parameters) o.parameters
  let gpi := orArg emptyList a.gpiInterfaces h.gpiInterfaces
  return {
    testModule := orArg emptyList a.testModule h.testModule
    toplevel := orArg emptyList a.toplevel h.toplevel
    toplevelLibrary := orArg emptyList a.toplevelLibrary h.toplevelLibrary
    toplevelLang := (match a.toplevelLang with | some (c :: t) => some (c :: t) | _ => h.toplevelLang)
    gpiInterfaces := if gpi = [] then none else some gpi
    parameters := if parameters = [] then none else some parameters
    seed := orArg falsySeed a.seed h.seed
    elabArgs := elabArgs
    testArgs := testArgs
    plusargs := plusargs
    env := merge (orArg emptyList a.env h.env) o.env
    gui := a.gui || h.gui
    waves := a.waves || h.waves
    verbose := a.verbose || h.verbose
    preCmd := if preCmd = [] then none else some preCmd
    timescale := if xcelium then none else a.timescale.or h.timescale
    buildDir := buildDir
    testDir := testDir
    resultsXml := testDir ++ lit "/results.xml" }

/-! ### Directories -/

/-- A character that `_POSIX_PATH` leaves alone. hdl.py:26. -/
def posix (c : Nat) : Bool :=
  (65 ≤ c && c ≤ 90) || (97 ≤ c && c ≤ 122) || (48 ≤ c && c ≤ 57) || c == 47 || c == 46 || c == 95 || c == 45

/-- The directory of a test below the build directory, on POSIX. hdl.py:84-89. -/
def nodeDir (nodeid : Text) : Text :=
  (replaceText (lit "::") (lit "/") (replaceText (lit ".py::") (lit "/") nodeid)).map fun c => if posix c then c else 95

/-- `self.test_dir`. hdl.py:91. -/
def testDirOf (buildDir nodeid : Text) : Text := buildDir ++ [47] ++ nodeDir nodeid

end Verif.PytestHdl
