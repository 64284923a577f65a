import Verif.Model.Waves
import Verif.Spec.RunCmd
/-!
# Which waveform file a simulation writes
-/
namespace Verif.Spec
open Verif Env Runner RunCmd Waves

/-- The arguments of the program for Verilator as a user reads them. -/
inductive Item where
  | perInstance | trace | flush | help
  | file (f : Text)
  | other (a : Text)
  deriving DecidableEq, Repr

/-- The name of an option of one word. -/
def Item.word : Item → Option Text
  | .perInstance => some (lit "--coverage-per-instance")
  | .trace => some (lit "--trace")
  | .flush => some (lit "--trace-flush")
  | .help => some (lit "--help")
  | _ => none

/-- A word that is none of the options. -/
def NoOpt (a : Text) : Prop :=
  a ≠ lit "--coverage-per-instance" ∧ a ≠ lit "--trace" ∧ a ≠ lit "--trace-flush" ∧ a ≠ lit "--trace-file" ∧ a ≠ lit "--help"

/-- How a list of items is written. -/
inductive OptsWritten : List Item → List Text → Prop where
  | nil : OptsWritten [] []
  | word {i w is ws} : i.word = some w → OptsWritten is ws → OptsWritten (i :: is) (w :: ws)
  | file {f is ws} : OptsWritten is ws → OptsWritten (.file f :: is) (lit "--trace-file" :: f :: ws)
  | other {a is ws} : NoOpt a → OptsWritten is ws → OptsWritten (.other a :: is) (a :: ws)

/-- The items stop the program: `--help`, or an option the design was not built for. -/
def Stops (v : VBuild) : Item → Option Int
  | .help => some 0
  | .trace => if v.trace then none else some (-1)
  | .perInstance => if v.coverage then none else some (-1)
  | _ => none

/-- The file named by an item. -/
def Item.name : Item → Option Text
  | .file f => some f
  | _ => none

/-- What follows `--wave=`. -/
def waveArg (a : Text) : Option Text := afterPrefix (lit "--wave=") a

/-- The waveform file the simulation writes when it is started with a command in directory `dir`, for the design of build `b`. -/
def waveWritten (v : VBuild) (t : Tool) (b : BuildOpts) (dir : Text) (cmd : Command) : Option Text :=
  match t with
  | .ghdl | .nvc => (cmd.filterMap waveArg).getLast?.map (joinPath dir)
  | .verilator => ((start v (cmd.drop 1)).opened v).map (joinPath dir)
  | .icarus => if lit "-fst" ∈ cmd then (icarusDump b cmd).map (joinPath dir) else none
  | _ => none

end Verif.Spec
