import Verif.Model.Runner
/-!
# Specification of the test runner

Readers for SystemVerilog and VHDL literals and Tcl words, written from the languages' manuals; what a user expects of
the selection of tests, the sources of a build and the outcome of a run.
-/
namespace Verif.Runner
open Verif.Env

/-! ### SystemVerilog literals (IEEE 1800, 5.7 and 5.9) -/

/-- The value of a hexadecimal digit. -/
def hexDigit (c : Nat) : Option Nat :=
  if 48 ≤ c ∧ c ≤ 57 then some (c - 48)
  else if 65 ≤ c ∧ c ≤ 70 then some (c - 55)
  else if 97 ≤ c ∧ c ≤ 102 then some (c - 87)
  else none

/-- The value of an octal digit. -/
def octDigit (c : Nat) : Option Nat := if 48 ≤ c ∧ c ≤ 55 then some (c - 48) else none

/-- The number of one to three octal digits, and how many there are. -/
def octNumber (r : Text) : Nat × Nat :=
  ((r.take 3).takeWhile fun c => (octDigit c).isSome).foldl (fun p c => (8 * p.1 + (octDigit c).getD 0, p.2 + 1)) (0, 0)

/-- An escape sequence after its backslash: the character it stands for and its length. -/
def svEscape (r : Text) : Option (Nat × Nat) :=
  match r with
  | [] => none
  | c :: r' =>
    if c = 110 then some (10, 1)
    else if c = 116 then some (9, 1)
    else if c = 92 then some (92, 1)
    else if c = 34 then some (34, 1)
    else if c = 118 then some (11, 1)
    else if c = 102 then some (12, 1)
    else if c = 97 then some (7, 1)
    else if c = 120 then
      match r' with
      | a :: b :: _ =>
        match hexDigit a, hexDigit b with
        | some x, some y => some (16 * x + y, 3)
        | some x, none => some (x, 2)
        | none, _ => none
      | [a] => (hexDigit a).map fun x => (x, 2)
      | [] => none
    else if (octDigit c).isSome then some (octNumber r)
    else some (c, 1)

/-- The rest of a string literal; `skip` characters belong to an escape sequence. -/
def svStringGo : Nat → Text → Option Text
  | _, [] => none
  | k + 1, _ :: cs => svStringGo k cs
  | 0, c :: cs =>
    if c = 34 then (if cs = [] then some [] else none)
    else if c = 92 then
      match svEscape cs with
      | none => none
      | some (v, n) => (svStringGo n cs).map (v :: ·)
    else if c < 32 then none
    else (svStringGo 0 cs).map (c :: ·)

/-- The value of a string literal. -/
def svString : Text → Option Text
  | 34 :: cs => svStringGo 0 cs
  | _ => none

/-- The value of a literal. -/
inductive HdlVal where
  | number (i : Int)
  | bits (cs : Text)
  | string (t : Text)
  | boolean (b : Bool)
  deriving DecidableEq

/-- A decimal integer with an optional sign. -/
def decimal (t : Text) : Option Int :=
  match t with
  | 45 :: ds => (parseDec (ds.map Char.ofNat)).map fun n => -(n : Int)
  | ds => (parseDec (ds.map Char.ofNat)).map fun n => (n : Int)

/-- The value of a SystemVerilog string, integer or binary literal. A binary literal has as many digits as its size
says, and at least one. -/
def svLiteral (t : Text) : Option HdlVal :=
  if t.head? = some 34 then (svString t).map .string
  else if 39 ∈ t then
    let size := t.takeWhile (· != 39)
    match (t.dropWhile (· != 39)).drop 1 with
    | 98 :: cs =>
      match parseDec (size.map Char.ofNat) with
      | some n => if 0 < n ∧ n = cs.length ∧ cs.all (fun c => c ∈ lit "01xXzZ") then some (.bits cs) else none
      | none => none
    | _ => none
  else (decimal t).map .number

/-- The value a SystemVerilog literal for a Python value must have. -/
def svValue : Value → Option HdlVal
  | .bool b => some (.bits [if b then 49 else 48])
  | .int i => some (.number i)
  | .logic cs => some (.bits cs)
  | .str t => some (.string t)
  | _ => none

/-! ### VHDL literals (IEEE 1076, 15.7) -/

/-- Graphic characters. -/
def graphic (c : Nat) : Bool := (32 ≤ c && c ≤ 126) || (160 ≤ c && c ≤ 255)

/-- The rest of a string literal. -/
def vhdlStringGo : Text → Option Text
  | [] => none
  | 34 :: cs =>
    match cs with
    | [] => some []
    | 34 :: cs => (vhdlStringGo cs).map (34 :: ·)
    | _ => none
  | c :: cs => if graphic c then (vhdlStringGo cs).map (c :: ·) else none

/-- The value of a VHDL boolean, string or integer literal. -/
def vhdlLiteral (t : Text) : Option HdlVal :=
  if t = lit "true" then some (.boolean true)
  else if t = lit "false" then some (.boolean false)
  else
    match t with
    | 34 :: cs => (vhdlStringGo cs).map .string
    | t => (decimal t).map .number

/-! ### Tcl words (the Tcl manual, rules 1 to 12) -/

/-- A backslash sequence after its backslash: the character it stands for. Sequences with numbers are not read. -/
def tclEscape (c : Nat) : Option Nat :=
  if c = 97 then some 7
  else if c = 98 then some 8
  else if c = 102 then some 12
  else if c = 110 then some 10
  else if c = 114 then some 13
  else if c = 116 then some 9
  else if c = 118 then some 11
  else if c = 10 ∨ (48 ≤ c ∧ c ≤ 55) ∨ c = 120 ∨ c = 117 ∨ c = 85 then none
  else some c

/-- The value of a text as the rest of one bare word: white space and `;` end a word, `$` and `[` are substituted. -/
def tclBare : Text → Option Text
  | [] => some []
  | [92] => none
  | 92 :: c :: cs =>
    match tclEscape c with
    | none => none
    | some v => (tclBare cs).map (v :: ·)
  | c :: cs =>
    if c = 32 ∨ (9 ≤ c ∧ c ≤ 13) ∨ c = 59 ∨ c = 36 ∨ c = 91 then none
    else (tclBare cs).map (c :: ·)

/-- The value of a text as one word; not if it starts with a quote or a brace, and not if it is empty. -/
def tclWord (t : Text) : Option Text :=
  if t = [] ∨ t.head? = some 34 ∨ t.head? = some 123 then none else tclBare t

/-! ### Selection -/

/-- The filters select the test: there are none, or one of them finds a match in its name. -/
def Selects (fs : List Text) (fullname : Text) : Prop :=
  fs = [] ∨ ∃ f ∈ fs, ∃ r, reParse f = some r ∧ r.Search fullname

/-- `Test.fullname`, _decorators.py:102-103. -/
def fullname (module name : Text) : Text := module ++ lit "." ++ name

/-- The variables that carry other arguments of `test`. -/
def argKeys : List Text :=
  ["COCOTB_TEST_FILTER", "COCOTB_RANDOM_SEED", "COCOTB_TOPLEVEL", "COCOTB_TEST_MODULES", "TOPLEVEL_LANG",
   "COCOTB_RESULTS_FILE"].map lit

/-- The other variables a runner sets. -/
def runnerKeys : List Text :=
  ["COCOTB_RESULTS_ATTACHMENTS", "PATH", "PYTHONPATH", "PYGPI_PYTHON_BIN", "GPI_USERS", "COCOTB_TRUST_INERTIAL_WRITES",
   "GPI_EXTRA"].map lit

/-! ### Builds -/

/-- The languages a simulator compiles. -/
def Sim.compiles : Sim → Tag → Bool
  | .icarus, t | .dsim, t => t = .verilog
  | .verilator, t => t = .verilog || t = .control
  | .ghdl, t | .nvc, t => t = .vhdl
  | _, t => t = .vhdl || t = .verilog

/-- The files of a build, in order: *sources*, then *vhdl_sources*, then *verilog_sources*, the latter two only for
simulators of the language. -/
def Build.files (b : Build) (sim : Sim) : List (Tag × Text) :=
  b.sources ++ (if sim.compiles .vhdl then b.vhdlSources else []) ++
    (if sim.compiles .verilog then b.verilogSources else [])

/-- The language of a file. -/
def Tag.language : Tag → Tag
  | .control => .verilog
  | t => t

/-- The build arguments for a file: the untagged ones and those tagged with its language. -/
def Build.argsOf (b : Build) (t : Tag) : List Text :=
  b.args.filterMap fun a => if a.1 = none ∨ a.1 = some t.language then some a.2 else none

/-- The commands of a build in an empty directory. -/
def fresh (sim : Sim) (b : Build) : PyM (List Cmd) := buildCommand sim b none (fun _ => none)

/-- The product is the one that a build in an empty directory would make of the files now. -/
def UpToDate (sim : Sim) (d : Disk) (b : Build) : Prop :=
  ∃ cmds, fresh sim b = .ok cmds ∧ d.out.map (·.2) = some (makes d.files cmds)

/-! ### Runs -/

/-- Every command could be started and ended with code 0. -/
def AllZero (ps : List Proc) : Prop := ∀ p ∈ ps, p.code = some 0

/-- The results file after all commands. -/
def after (f : File) (ps : List Proc) : File := ps.foldl (fun f p => p.effect f) f

/-- The file is a results file without failed tests. -/
def NoFailure (f : File) : Prop := ∃ d n, f = .doc d ∧ XUnit.getResults d = .ok (n, 0)

end Verif.Runner
