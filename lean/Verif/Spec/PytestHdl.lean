import Verif.Model.PytestHdl
import Verif.Spec.Env
/-!
# What the fixture `hdl` should pass to the runner

An argument of `build` or `test` that is given; else what the markers say, the one nearest to the test last; else the option.
Arguments of the command line come after the others, names and values of the command line replace others.
-/
namespace Verif.Spec
open Verif PytestHdl

/-- The words of all markers of one kind, in order. -/
def extended (f : Marker → List Text) (ms : List Marker) : List Text := ms.flatMap f

/-- The last value for a name. In a dictionary each name occurs once. -/
def valueFor (d : Dict) (n : Text) : Option Text := ((d.filter fun p => p.1 = n).getLast?).map (·.2)

/-- The value of the last marker of one kind. -/
def latest {α : Type} (f : Marker → Option α) (ms : List Marker) : Option α := (ms.filterMap f).getLast?

/-- The words of a marker, by kind. -/
def Marker.sourcesOf : Marker → List Text | .sources as => as | _ => []
@[inherit_doc Marker.sourcesOf] def Marker.includesOf : Marker → List Text | .includes as => as | _ => []
@[inherit_doc Marker.sourcesOf] def Marker.plusargsOf : Marker → List Text | .plusargs as => as | _ => []
@[inherit_doc Marker.sourcesOf] def Marker.buildArgsOf : Marker → List Text | .buildArgs as => as | _ => []
@[inherit_doc Marker.sourcesOf] def Marker.elabArgsOf : Marker → List Text | .elabArgs as => as | _ => []
@[inherit_doc Marker.sourcesOf] def Marker.testArgsOf : Marker → List Text | .testArgs as => as | _ => []
@[inherit_doc Marker.sourcesOf] def Marker.preCmdOf : Marker → List Text | .preCmd as => as | _ => []
/-- The names and values of a marker, by kind. -/
def Marker.definesOf : Marker → Dict | .defines kw => kw | _ => []
@[inherit_doc Marker.definesOf] def Marker.parametersOf : Marker → Dict | .parameters kw => kw | _ => []
@[inherit_doc Marker.definesOf] def Marker.envOf : Marker → Dict | .env kw => kw | _ => []
/-- The value of a marker, by kind. A time scale without a precision has the unit as its precision. -/
def Marker.libraryOf : Marker → Option Text | .library n => some n | _ => none
@[inherit_doc Marker.libraryOf] def Marker.wavesOf : Marker → Option Bool | .waves b => some b | _ => none
@[inherit_doc Marker.libraryOf] def Marker.verboseOf : Marker → Option Bool | .verbose b => some b | _ => none
@[inherit_doc Marker.libraryOf] def Marker.alwaysOf : Marker → Option Bool | .always b => some b | _ => none
@[inherit_doc Marker.libraryOf] def Marker.cleanOf : Marker → Option Bool | .clean b => some b | _ => none
@[inherit_doc Marker.libraryOf] def Marker.seedOf : Marker → Option Seed | .seed s => some s | _ => none
@[inherit_doc Marker.libraryOf] def Marker.timescaleOf : Marker → Option (Text × Text)
  | .timescale u none => some (u, u)
  | .timescale u (some []) => some (u, u)
  | .timescale u (some p) => some (u, p)
  | _ => none

/-- What `Runner.build` should get. `ms` are the markers, those of the session first and those of the test last. -/
structure WantedBuild (o : Options) (ms : List Marker) (dir : Text) (a : BuildArgs) (c : BuildCall) : Prop where
  library : c.library = a.library.getD ((latest Marker.libraryOf ms).getD o.library)
  sources : c.sources = a.sources.getD (extended Marker.sourcesOf ms)
  includes : c.includes = (a.includes.map (·.items)).getD (extended Marker.includesOf ms) ++ o.includes
  buildArgs : c.buildArgs = (a.buildArgs.map (·.items)).getD (extended Marker.buildArgsOf ms) ++ o.buildArgs
  defines : ∀ n, dictGet c.defines n = (valueFor o.defines n).or
    ((a.defines.map (dictGet · n)).getD (valueFor (ms.flatMap Marker.definesOf) n))
  parameters : ∀ n, dictGet c.parameters n = (valueFor o.parameters n).or
    ((a.parameters.map (dictGet · n)).getD (valueFor (ms.flatMap Marker.parametersOf) n))
  timescale : c.timescale = a.timescale.or ((latest Marker.timescaleOf ms).or o.timescale)
  always : c.always = (a.always || (latest Marker.alwaysOf ms).getD o.always)
  clean : c.clean = (a.clean || (latest Marker.cleanOf ms).getD o.clean)
  verbose : c.verbose = (a.verbose || (latest Marker.verboseOf ms).getD o.verbose)
  waves : c.waves = (a.waves || (latest Marker.wavesOf ms).getD o.waves)
  buildDir : c.buildDir = a.buildDir.getD dir
  cwd : c.cwd = a.cwd.getD (a.buildDir.getD dir)

/-- What `Runner.test` should get. -/
structure WantedTest (o : Options) (ms : List Marker) (dir : Text) (xcelium : Bool) (a : TestArgs) (c : TestCall) : Prop where
  seed : c.seed = a.seed.getD ((latest Marker.seedOf ms).getD (.int o.seed))
  elabArgs : c.elabArgs = (a.elabArgs.map (·.items)).getD (extended Marker.elabArgsOf ms) ++ o.elabArgs
  testArgs : c.testArgs = (a.testArgs.map (·.items)).getD (extended Marker.testArgsOf ms) ++ o.testArgs
  plusargs : c.plusargs = (a.plusargs.map (·.items)).getD (extended Marker.plusargsOf ms) ++ o.plusargs
  preCmd : c.preCmd.getD [] = (a.preCmd.map (·.items)).getD (extended Marker.preCmdOf ms) ++ o.preCmd
  parameters : ∀ n, dictGet (c.parameters.getD []) n = (valueFor o.parameters n).or
    ((a.parameters.map (dictGet · n)).getD (valueFor (ms.flatMap Marker.parametersOf) n))
  env : ∀ n, dictGet c.env n = (valueFor o.env n).or ((a.env.map (dictGet · n)).getD (valueFor (ms.flatMap Marker.envOf) n))
  timescale : c.timescale = if xcelium then none else a.timescale.or ((latest Marker.timescaleOf ms).or o.timescale)
  verbose : c.verbose = (a.verbose || (latest Marker.verboseOf ms).getD o.verbose)
  waves : c.waves = (a.waves || (latest Marker.wavesOf ms).getD o.waves)
  gui : c.gui = (a.gui || o.gui)
  toplevelLibrary : c.toplevelLibrary = a.toplevelLibrary.getD o.toplevelLibrary
  gpiInterfaces : c.gpiInterfaces.getD [] = a.gpiInterfaces.getD o.gpiInterfaces
  buildDir : c.buildDir = a.buildDir.getD dir
  testDir : c.testDir = a.testDir.getD dir
  resultsXml : c.resultsXml = a.testDir.getD dir ++ Runner.lit "/results.xml"

/-- No argument is given as empty. -/
structure BuildArgsFull (a : BuildArgs) : Prop where
  library : a.library ≠ some []
  sources : a.sources ≠ some []
  includes : ∀ s, a.includes = some s → s.items ≠ []
  buildArgs : ∀ s, a.buildArgs = some s → s.items ≠ []
  defines : a.defines ≠ some []
  parameters : a.parameters ≠ some []
  buildDir : a.buildDir ≠ some []
  cwd : a.cwd ≠ some []

/-- No argument is given as a tuple where the runner's list is extended. -/
structure BuildArgsLists (a : BuildArgs) : Prop where
  includes : ∀ s, a.includes = some s → s.tuple = false
  buildArgs : ∀ s, a.buildArgs = some s → s.tuple = false

@[inherit_doc BuildArgsFull] structure TestArgsFull (a : TestArgs) : Prop where
  seed : a.seed ≠ some (.int 0) ∧ a.seed ≠ some (.str [])
  elabArgs : ∀ s, a.elabArgs = some s → s.items ≠ []
  testArgs : ∀ s, a.testArgs = some s → s.items ≠ []
  plusargs : ∀ s, a.plusargs = some s → s.items ≠ []
  preCmd : ∀ s, a.preCmd = some s → s.items ≠ []
  parameters : a.parameters ≠ some []
  env : a.env ≠ some []
  toplevelLibrary : a.toplevelLibrary ≠ some []
  gpiInterfaces : a.gpiInterfaces ≠ some []
  buildDir : a.buildDir ≠ some []
  testDir : a.testDir ≠ some []

@[inherit_doc BuildArgsLists] structure TestArgsLists (a : TestArgs) : Prop where
  elabArgs : ∀ s, a.elabArgs = some s → s.tuple = false
  testArgs : ∀ s, a.testArgs = some s → s.tuple = false
  plusargs : ∀ s, a.plusargs = some s → s.tuple = false
  preCmd : ∀ s, a.preCmd = some s → s.tuple = false

/-- `NAME=VALUE`, or `NAME` for an empty value. -/
inductive Assigns : (item name value : Text) → Prop
  | value (n v) : 61 ∉ n → Assigns (n ++ 61 :: v) n v
  | bare (n) : 61 ∉ n → Assigns n n []

/-- `UNIT[/PRECISION]`: blanks around the parts do not count; without a precision it is the unit. -/
inductive Scale : Text → Text × Text → Prop
  | both (a b u p) : 47 ∉ a → EnvSpec.Trimmed a u → EnvSpec.Trimmed b p → p ≠ [] → Scale (a ++ 47 :: b) (u, p)
  | blank (a b u) : 47 ∉ a → EnvSpec.Trimmed a u → EnvSpec.Trimmed b [] → Scale (a ++ 47 :: b) (u, u)
  | unit (a u) : 47 ∉ a → EnvSpec.Trimmed a u → Scale a (u, u)

end Verif.Spec
