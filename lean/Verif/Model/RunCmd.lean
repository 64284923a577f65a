import Verif.Model.Runner
/-!
# The commands of the Python test runner

src/cocotb_tools/runner.py, `_build_command` and `_test_command` of all runners with all options. A command is its list of
arguments. For Aldec's simulators the runner starts `vsimsa` with a script; here the lines of the script stand for the
commands, each as the list of texts that are joined with blanks. Paths are absolute and without a slash at the end; names
and values of defines and parameters are the texts `str` gives.
-/
namespace Verif.RunCmd
open Verif Env Runner

/-- The runners of `SUPPORTED_RUNNERS`, runner.py:2380-2392. -/
inductive Tool where
  | icarus | questa | questaQis | ghdl | nvc | riviera | activeHdl | verilator | xcelium | vcs | dsim
  deriving DecidableEq, Repr

/-- The arguments of a process. -/
abbrev Command := List Text

/-- What the runners find on the machine: libraries of `cocotb_tools.config` (with an entry point or as a path), which
exist, `shutil.which("verilator")`, the number of jobs, the versions of GHDL and NVC, `SIM_CMD_PREFIX` and
`SIM_CMD_SUFFIX` as split by `_get_sim_cmd_prefix`, runner.py:848-860. -/
structure Cfg where
  libEntry : String → String → Text
  libPath : String → String → Text
  libExists : String → Bool
  libsDir : Text
  shareDir : Text
  verilator : Option Text
  jobs : Text
  mcode : Bool
  preserveCase : Bool
  cmdPrefix : List Text
  cmdSuffix : List Text

/-- The arguments of `build` as the runner stores them, runner.py:425-461. -/
structure BuildOpts where
  library : Text
  sources : List (Tag × Text)
  vhdlSources : List (Tag × Text)
  verilogSources : List (Tag × Text)
  args : List (Option Tag × Text)
  includes : List Text
  defines : List (Text × Text)
  parameters : List (Text × Text)
  toplevel : Option Text
  always : Bool
  verbose : Bool
  waves : Bool
  timescale : Option (Text × Text)
  buildDir : Text

/-- The arguments of `test` as the runner stores them, runner.py:533-610. -/
structure TestOpts where
  toplevel : Text
  library : Text
  lang : String
  interfaces : List String
  preCmd : Option (List Text)
  elabArgs : List Text
  testArgs : List Text
  plusargs : List Text
  waves : Bool
  gui : Bool
  verbose : Bool
  timescale : Option (Text × Text)
  testName : Text
  testDir : Text

/-! ### Options -/

/-- `f"{name}={value}"`. -/
def nameEq (d : Text × Text) : Text := d.1 ++ [61] ++ d.2

/-- `f"{a}/{b}"`. -/
def slash (t : Text × Text) : Text := t.1 ++ [47] ++ t.2

/-- `_get_define_options`. runner.py:913-914, 1064-1065, 1237-1238, 1443-1444, 1572-1573, 1659-1660, 1903-1904,
2023-2027, 2195-2196, 2295-2296. GHDL and NVC raise RuntimeError, but never call it. -/
def defineOpt : Tool → Text × Text → Text
  | .icarus, d | .verilator, d => lit "-D" ++ nameEq d
  | .riviera, d | .activeHdl, d => lit "'+define+" ++ nameEq d ++ [39]
  | .xcelium, d => lit "-define " ++ d.1 ++ [61] ++ svEscapeString d.2
  | _, d => lit "+define+" ++ nameEq d

/-- `_get_include_options`. runner.py:910-911, 1061-1062, 1234-1235, 1656-1657, 1900-1901, 2020-2021, 2192-2193,
2292-2293. -/
def includeOpt : Tool → Text → Text
  | .icarus, p | .verilator, p => lit "-I" ++ p
  | .riviera, p | .activeHdl, p => lit "+incdir+" ++ asTclValue p
  | .xcelium, p => lit "-incdir " ++ p
  | _, p => lit "+incdir+" ++ p

/-- `_get_parameter_options`. runner.py:916-920, 1067-1068, 1240-1241, 1446-1447, 1575-1576, 1662-1663, 1906-1907,
2029-2030, 2198-2204, 2298-2299. `None` in an f-string is the text `None`. -/
def paramOpt (top : Option Text) : Tool → Text × Text → Text
  | .icarus, d => lit "-P" ++ top.getD (lit "None") ++ [46] ++ nameEq d
  | .verilator, d => lit "-G" ++ nameEq d
  | .xcelium, d => lit "-gpg \"" ++ d.1 ++ lit " => " ++ d.2 ++ [34]
  | .vcs, d => lit "-pvalue+" ++ top.getD (lit "None") ++ [46] ++ nameEq d
  | .dsim, d => lit "-defparam " ++ nameEq d
  | _, d => lit "-g" ++ nameEq d

/-! ### Building -/

/-- All defines, includes and parameters as options. -/
def defs (t : Tool) (b : BuildOpts) : List Text := b.defines.map (defineOpt t)
@[inherit_doc defs] def incs (t : Tool) (b : BuildOpts) : List Text := b.includes.map (includeOpt t)
@[inherit_doc defs] def params (t : Tool) (b : BuildOpts) : List Text := b.parameters.map (paramOpt b.toplevel t)

/-- The values of all build arguments, and of those for one language. -/
def allArgs (b : BuildOpts) : List Text := b.args.map (·.2)
@[inherit_doc allArgs] def argsFor (b : BuildOpts) (t : Tag) : List Text :=
  (b.args.filter fun a => a.1 = some t ∨ a.1 = none).map (·.2)

/-- `if outdated(out, sources) or self.always`. -/
def unlessFresh (b : BuildOpts) (out : Option Nat) (times : Times) (srcs : List (Tag × Text)) (cmds : PyM (List Command)) :
    PyM (List Command) :=
  match outdated out times (srcs.map (·.2)) with
  | .error e => .error e
  | .ok o => if o || b.always then cmds else .ok []

/-- One command for each file, by its language; other files are refused. runner.py:1087-1117, 1688-1698. -/
def perSource (vhdl verilog : Text → Command) : List (Tag × Text) → PyM (List Command)
  | [] => .ok []
  | s :: ss =>
    if s.1 = .vhdl then (perSource vhdl verilog ss).map (vhdl s.2 :: ·)
    else if s.1 = .verilog then (perSource vhdl verilog ss).map (verilog s.2 :: ·)
    else .error .valueError

/-- The paths of sources. -/
def paths (srcs : List (Tag × Text)) : List Text := srcs.map (·.2)

/-- `_build_command`. `out` is the modification time of the file the runner looks at. -/
def buildCmds (cfg : Cfg) (t : Tool) (b : BuildOpts) (out : Option Nat) (times : Times) : PyM (List Command) :=
  match t with
  | .icarus => -- runner.py:964-1017
    match b.toplevel with
    | none => .error .valueError
    | some top =>
      let srcs := b.sources ++ b.verilogSources
      if ¬ only [.verilog] .verilog srcs b.args then .error .valueError
      else unlessFresh b out times srcs (.ok [
        [lit "iverilog", lit "-o", b.buildDir ++ lit "/sim.vvp", lit "-s", top, lit "-g2012"] ++
        defs t b ++ incs t b ++ params t b ++ allArgs b ++
        (if b.waves then [lit "-s", lit "cocotb_iverilog_dump"] else []) ++
        (if b.timescale.isSome then [lit "-f", b.buildDir ++ lit "/cmds.f"] else []) ++
        paths srcs ++
        (if b.waves then [b.buildDir ++ lit "/cocotb_iverilog_dump.v"] else [])])
  | .questa => -- runner.py:1070-1117
    let quiet := if b.verbose then [] else [lit "-quiet"]
    (perSource
      (fun p => [lit "vcom"] ++ quiet ++ [lit "-work", b.library] ++ argsFor b .vhdl ++ [p])
      (fun p => [lit "vlog"] ++ quiet ++ (if b.always then [] else [lit "-incr"]) ++ [lit "-work", b.library, lit "-sv"] ++
        defs t b ++ incs t b ++ argsFor b .verilog ++ [p])
      (b.sources ++ b.vhdlSources ++ b.verilogSources)).map ([lit "vlib", b.library] :: ·)
  | .questaQis => -- runner.py:1258-1307
    let srcs := b.sources ++ b.vhdlSources ++ b.verilogSources
    .ok [
      [lit "qrun", lit "-optimize", lit "-outdir", b.buildDir ++ lit "/qrun_out"] ++
      (if b.verbose then [] else [lit "-quiet"]) ++
      [lit "-top", b.library ++ [46] ++ b.toplevel.getD (lit "None"), lit "-voptargs=-access=rw+/.", lit "-designfile",
        b.buildDir ++ lit "/design.bin", lit "-sv", lit "-makelib", b.library] ++
      paths srcs ++ defs t b ++ incs t b ++
      (match b.timescale with | some ts => [lit "-timescale", slash ts] | none => []) ++
      allArgs b ++ [lit "-end"] ++ params t b]
  | .ghdl => -- runner.py:1449-1482
    let srcs := b.sources ++ b.vhdlSources
    if ¬ only [.vhdl] .vhdl srcs b.args then .error .valueError
    else .ok (
      ([lit "ghdl", lit "-i", lit "--work=" ++ b.library] ++ allArgs b ++ paths srcs) ::
      match b.toplevel with
      | some top => [[lit "ghdl", lit "-m", lit "--work=" ++ b.library] ++ allArgs b ++ [top]]
      | none => [])
  | .nvc => -- runner.py:1584-1612
    let srcs := b.sources ++ b.vhdlSources
    if ¬ only [.vhdl] .vhdl srcs b.args then .error .valueError
    else .ok [
      [lit "nvc", lit "--work=" ++ b.library, lit "-L", b.buildDir] ++ allArgs b ++ [lit "-a"] ++ paths srcs ++
      (if cfg.preserveCase then [lit "--preserve-case"] else [])]
  | .riviera | .activeHdl => -- runner.py:1665-1710: the lines of the script
    let srcs := b.sources ++ b.vhdlSources ++ b.verilogSources
    let lib := asTclValue b.library
    (unlessFresh b out times srcs ((perSource
      (fun p => [lit "acom", lit "-work", lib] ++ argsFor b .vhdl ++ [asTclValue p])
      (fun p => [lit "alog", lit "-work", lib, lit "-pli", asTclValue (cfg.libEntry "vpi" "riviera"), lit "-sv"] ++
        defs t b ++ incs t b ++ argsFor b .verilog ++ [asTclValue p])
      srcs).map ([lit "alib", lib] :: ·))).map
      fun lines => [lit "onerror {\n quit -code 1 \n}"] :: lines ++ [[lit "exit"]]
  | .verilator => -- runner.py:1909-1984
    match cfg.verilator with
    | none => .error .runtimeError
    | some exe =>
      let srcs := b.sources ++ b.verilogSources
      if ¬ only [.verilog, .control] .verilog srcs b.args then .error .valueError
      else
        match b.toplevel with
        | none => .error .valueError
        | some top =>
          .ok [
            [exe, lit "-cc", lit "--exe", lit "-Mdir", b.buildDir, lit "--top-module", top, lit "--vpi",
              lit "--public-flat-rw", lit "--prefix", lit "Vtop", lit "-o", top, lit "-LDFLAGS",
              lit "-Wl,-rpath," ++ cfg.libsDir ++ lit " -L" ++ cfg.libsDir ++ lit " -lcocotbvpi_verilator"] ++
            (if b.waves then [lit "--trace"] else []) ++ allArgs b ++
            (match b.timescale with | some ts => [lit "--timescale", slash ts] | none => []) ++
            defs t b ++ incs t b ++ params t b ++ [cfg.shareDir ++ lit "/lib/verilator/verilator.cpp"] ++ paths srcs,
            [lit "make", lit "-j", cfg.jobs, lit "-C", b.buildDir, lit "-f", lit "Vtop.mk",
              if b.waves then lit "VM_TRACE=1" else lit "VM_TRACE=0"]]
  | .xcelium => -- runner.py:2032-2090
    if b.waves then .error .runtimeError
    else
      match b.toplevel with
      | none => .error .valueError
      | some top =>
        let srcs := b.sources ++ b.vhdlSources ++ b.verilogSources
        if ¬ srcs.all (fun s => s.1 ∈ [Tag.vhdl, .verilog]) then .error .valueError
        else .ok [
          [lit "xrun", lit "-logfile", lit "xrun_build.log", lit "-elaborate", lit "-xmlibdirname",
            b.buildDir ++ lit "/xrun_snapshot", lit "-licqueue"] ++
          (if b.always then [lit "-clean"] else []) ++
          (if b.verbose then [lit "-messages", lit "-status", lit "-gverbose"] else [lit "-quiet"]) ++
          [lit "-access +rwc"] ++
          (if srcs.any (fun s => s.1 = .vhdl) then [lit "-NEW_VHPI_PROPAGATE_DELAY"] else []) ++
          [lit "-work " ++ b.library] ++
          (match b.timescale with | some ts => [lit "-timescale", slash ts] | none => []) ++
          allArgs b ++ incs t b ++ defs t b ++ params t b ++ [lit "-top " ++ top] ++ paths srcs]
  | .vcs => -- runner.py:2211-2252
    let srcs := b.sources ++ b.vhdlSources ++ b.verilogSources
    if ¬ srcs.all (fun s => s.1 ∈ [Tag.vhdl, .verilog]) then .error .valueError
    else unlessFresh b out times srcs
      (match b.toplevel with
      | none => .error .valueError
      | some top => .ok [
        [lit "vcs", lit "-full64", lit "-debug_access+all", lit "+acc+3", lit "-sverilog", lit "-LDFLAGS -Wl,--no-as-needed"] ++
        (if b.verbose then [lit "-diag all"] else [lit "-q", lit "-suppress=VPI-CT-NS"]) ++
        [lit "-load", cfg.libEntry "vpi" "vcs"] ++ allArgs b ++ incs t b ++ defs t b ++ params t b ++
        [lit "-top", top] ++ paths srcs ++ [lit "-o", b.buildDir ++ lit "/simv"]])
  | .dsim => -- runner.py:2337-2377
    let srcs := b.sources ++ b.verilogSources
    if ¬ only [.verilog] .verilog srcs b.args then .error .valueError
    else unlessFresh b out times srcs (.ok [
      cfg.cmdPrefix ++
      [lit "dsim", lit "-work", b.buildDir, lit "-pli_lib", cfg.libEntry "vpi" "dsim", lit "+acc+rwcbfsWF", lit "-genimage",
        lit "image"] ++
      defs t b ++ incs t b ++ params t b ++ allArgs b ++ paths srcs ++ cfg.cmdSuffix])

/-- The file `cmds.f` that Icarus Verilog's runner writes when it builds. `_create_cmd_file`, runner.py:928-931, 987-989. -/
def cmdsFile (b : BuildOpts) : Option Text :=
  match b.timescale with
  | some ts => some (lit "+timescale+" ++ slash ts ++ [10])
  | none => none

/-! ### Testing -/

/-- The options for GPI libraries of Questa. runner.py:1138-1157, 1342-1359. -/
def questaLib (cfg : Cfg) (qis : Bool) (i : String) : List Text :=
  if i = "fli" then [lit "-foreign", lit "cocotb_init " ++ cfg.libPath "fli" "questa"]
  else if i = "vhpi" then
    (if qis then [] else [lit "-voptargs=-access=rw+/."]) ++
      [lit "-foreign", lit "vhpi_startup_routines_bootstrap " ++ cfg.libPath "vhpi" "questa"]
  else [lit "-pli", cfg.libEntry "vpi" "questa"]

/-- The time resolution for GHDL. runner.py:1490-1516. -/
def ghdlResolution (p : Text) : PyM Text :=
  if p = lit "1fs" then .ok (lit "fs")
  else if p = lit "1ps" then .ok (lit "ps")
  else if p = lit "1ns" then .ok (lit "ns")
  else if p = lit "1us" then .ok (lit "us")
  else if p = lit "1ms" then .ok (lit "ms")
  else if p = lit "1s" then .ok (lit "sec")
  else .error .valueError

/-- `_waves_file`. runner.py:925-926, 1437-1438, 1581-1582, 1891-1892, 2308-2309. -/
def wavesFile (t : Tool) (o : TestOpts) : Option Text :=
  match t with
  | .icarus => some (o.toplevel ++ lit ".fst")
  | .ghdl => some (o.toplevel ++ lit ".ghw")
  | .nvc => some (o.toplevel ++ lit ".fst")
  | .verilator => some (lit "dump.vcd")
  | .dsim => some (lit "file.vcd")
  | _ => none

/-- `_test_command`. `last` is what the last `build` stored, if there was one; `ps` and `dir` are `self.parameters` and
`self.build_dir`. A missing attribute is `attributeError`. -/
def testCmds (cfg : Cfg) (t : Tool) (last : Option BuildOpts) (ps : List (Text × Text)) (dir : Text) (o : TestOpts) :
    PyM (List Command) :=
  let params := ps.map (paramOpt none t)
  let wave := match wavesFile t o with
    | some f => if o.waves || o.gui then [lit "--wave=" ++ f] else []
    | none => []
  match t with
  | .icarus => -- runner.py:1019-1041
    if o.preCmd.isSome then .error .runtimeError
    else .ok [cfg.cmdPrefix ++ [lit "vvp", lit "-m", cfg.libEntry "vpi" "icarus"] ++ o.testArgs ++ [dir ++ lit "/sim.vvp"] ++
      o.plusargs ++ [if o.waves || o.gui then lit "-fst" else lit "-none"] ++ cfg.cmdSuffix]
  | .questa => -- runner.py:1119-1189
    match o.interfaces with
    | [] => .error .indexError
    | i :: is =>
      if ¬ is.all cfg.libExists then .error .runtimeError
      else .ok [cfg.cmdPrefix ++ [lit "vsim"] ++ (if o.verbose then [] else [lit "-quiet"]) ++
        [if o.gui then lit "-gui" else lit "-c", lit "-onfinish", if o.gui then lit "stop" else lit "exit"] ++
        questaLib cfg false i ++ o.testArgs ++ params ++ [o.library ++ [46] ++ o.toplevel] ++ o.plusargs ++
        (match o.preCmd with | some l => lit "-do" :: l | none => []) ++
        [lit "-do", (if o.waves then lit "log -recursive /*;" else []) ++ (if o.gui then [] else lit "run -all; quit")] ++
        cfg.cmdSuffix]
  | .questaQis => -- runner.py:1309-1401
    match o.interfaces with
    | [] => .error .indexError
    | i :: is =>
      if ¬ is.all cfg.libExists then .error .runtimeError
      else .ok [cfg.cmdPrefix ++ [lit "qrun", lit "-simulate", lit "-outdir", dir ++ lit "/qrun_out"] ++
        (if o.verbose then [] else [lit "-quiet"]) ++
        (if o.waves then [lit "-qwavedb=+signal+memory=all+class+assertion+uvm_schematic+msg+wavefile=" ++
          o.testDir ++ lit "/qwave.db"] else []) ++
        (if o.gui then [lit "-gui", lit "-visualizer", lit "-designfile", dir ++ lit "/design.bin"] else [lit "-c"]) ++
        [lit "-onfinish", if o.gui then lit "stop" else lit "exit"] ++ questaLib cfg true i ++
        (match o.timescale with | some ts => if o.lang = "vhdl" then [lit "-t", ts.2] else [] | none => []) ++
        o.testArgs ++ [lit "-top", o.library ++ [46] ++ o.toplevel] ++ o.plusargs ++
        (match o.preCmd with | some l => lit "-do" :: l | none => []) ++
        [lit "-do", if o.gui then [] else lit "run -all; quit"] ++ cfg.cmdSuffix]
  | .ghdl => -- runner.py:1484-1530
    if o.preCmd.isSome then .error .runtimeError
    else
      let res : PyM (List Text) :=
        match o.timescale with
        | some ts =>
          if cfg.mcode then
            match ghdlResolution ts.2 with
            | .ok r => .ok [lit "--time-resolution=" ++ r]
            | .error e => .error e
          else .ok []
        | none => .ok []
      match res with
      | .error e => .error e
      | .ok r => .ok [cfg.cmdPrefix ++ [lit "ghdl", lit "-r", lit "--work=" ++ o.library] ++ o.testArgs ++ r ++ [o.toplevel] ++
          [lit "--vpi=" ++ cfg.libEntry "vpi" "ghdl"] ++ o.plusargs ++ params ++ wave ++ cfg.cmdSuffix]
  | .nvc => -- runner.py:1614-1636
    match last with
    | none => .error .attributeError
    | some b => .ok [cfg.cmdPrefix ++
        [lit "nvc", lit "--work=" ++ o.library ++ [58] ++ dir ++ [47] ++ o.library, lit "-L", dir] ++ allArgs b ++
        [lit "-e", o.toplevel, lit "--no-save", lit "--jit"] ++ o.elabArgs ++ params ++ [lit "-r"] ++ o.testArgs ++
        [lit "--load=" ++ cfg.libEntry "vhpi" "nvc"] ++ o.plusargs ++ wave ++ cfg.cmdSuffix]
  | .riviera | .activeHdl => -- runner.py:1712-1865: the lines of the script
    let asim := [lit "asim", lit "+access", lit "+w_nets", lit "-interceptcoutput"] ++
      (if o.lang = "vhdl" then [lit "-loadvhpi", asTclValue (cfg.libEntry "vhpi" "riviera")]
        else [lit "-pli", asTclValue (cfg.libEntry "vpi" "riviera")]) ++
      (o.testArgs ++ params).map asTclValue ++ [asTclValue (o.library ++ [46] ++ o.toplevel)] ++ o.plusargs.map asTclValue
    let log := if o.waves then [[lit "log -recursive /*;"]] else []
    if t = .riviera then
      .ok ((if o.gui then [] else [[lit "onerror {\n quit -code 1 \n}"]]) ++ [asim] ++
        (match o.preCmd with | some l => l.map fun s => [s ++ [59]] | none => []) ++ log ++
        (if o.gui then [[lit "echo execute run -all to run the whole simulation."]] else [[lit "run -all"], [lit "exit"]]))
    else if o.preCmd.isSome then .error .runtimeError
    else .ok ([[lit "onerror {\n quit -code 1 \n}"], asim] ++ log ++ [[lit "run -all"], [lit "exit"]])
  | .verilator => -- runner.py:1986-1998
    if o.preCmd.isSome then .error .runtimeError
    else .ok [cfg.cmdPrefix ++ [dir ++ [47] ++ o.toplevel] ++ (if o.waves || o.gui then [lit "--trace"] else []) ++
      o.testArgs ++ o.plusargs ++ cfg.cmdSuffix]
  | .xcelium => -- runner.py:2092-2173
    if o.preCmd.isSome then .error .runtimeError
    else if o.timescale.isSome then .error .runtimeError
    else
      match last with
      | none => .error .attributeError
      | some b =>
        let tmp := lit "implicit_tmpdir_" ++ o.testName
        .ok [[lit "mkdir", lit "-p", tmp],
          cfg.cmdPrefix ++ [lit "xrun", lit "-logfile", lit "xrun_" ++ o.testName ++ lit ".log", lit "-xmlibdirname",
            dir ++ lit "/xrun_snapshot", lit "-loadvpisim", cfg.libEntry "vpi" "xcelium", lit "-cds_implicit_tmpdir", tmp,
            lit "-licqueue"] ++
          (if (b.sources ++ b.vhdlSources ++ b.verilogSources).any (fun s => s.1 = .vhdl)
            then [lit "-NEW_VHPI_PROPAGATE_DELAY"] else []) ++
          (if o.verbose then [lit "-messages", lit "-status", lit "-gverbose", lit "-pliverbose", lit "-plidebug",
            lit "-plierr_verbose"] else [lit "-quiet", lit "-plinowarn"]) ++
          [lit "-R"] ++ o.testArgs ++ o.plusargs ++ [if o.gui then lit "-gui" else []] ++
          (if o.waves then [lit "-input \"@database -open cocotb_waves -default\" ",
              lit "-input \"@probe -database cocotb_waves -create " ++ (if o.lang = "vhdl" then lit ":" else o.toplevel) ++
                lit " -all -depth all\" ",
              lit "-input \"@run\" ", lit "-input \"@exit\" "]
            else [lit "-input", lit "@run; exit;"]) ++
          cfg.cmdSuffix]
  | .vcs => -- runner.py:2254-2275
    if o.preCmd.isSome then .error .runtimeError
    else .ok [cfg.cmdPrefix ++ [dir ++ lit "/simv"] ++
      (if o.verbose then [lit "-diag all"] else [lit "-suppress=ASLR_DETECTED_INFO"]) ++ o.testArgs ++ o.plusargs ++
      cfg.cmdSuffix]
  | .dsim => -- runner.py:2311-2335
    if o.preCmd.isSome then .error .runtimeError
    else .ok [[lit "dsim", lit "-work", dir, lit "-pli_lib", cfg.libEntry "vpi" "dsim", lit "+acc+rwcbfsWF", lit "-image",
      lit "image"] ++ o.testArgs ++ o.plusargs ++ (if o.waves || o.gui then [lit "-waves file.vcd"] else []) ++
      (match o.timescale with | some ts => [lit "-timescale " ++ slash ts] | none => [])]

/-- The processes of a test: for Aldec's simulators, the one that runs the script in `file`. `_simulator_command`,
runner.py:1777-1787, 1815-1836; otherwise the commands themselves. -/
def testProcs (cfg : Cfg) (t : Tool) (last : Option BuildOpts) (ps : List (Text × Text)) (dir file : Text) (o : TestOpts) :
    PyM (List Command) :=
  match testCmds cfg t last ps dir o with
  | .error e => .error e
  | .ok cmds =>
    if t = .riviera ∨ t = .activeHdl then
      .ok [cfg.cmdPrefix ++ [if t = .riviera ∧ o.gui then lit "riviera" else lit "vsimsa", lit "-do", file] ++ cfg.cmdSuffix]
    else .ok cmds

/-! ### A runner and its calls -/

/-- The attributes of a runner that outlive a call. runner.py:219-221, 425-461, 533-545. -/
structure Obj where
  last : Option BuildOpts
  parameters : List (Text × Text)
  buildDir : Text

/-- `Runner.__init__`, runner.py:216-226. -/
def Obj.new (cwd : Text) : Obj := ⟨none, [], cwd ++ lit "/sim_build"⟩

inductive Call where
  | build (b : BuildOpts)
  /-- `test` with its `parameters` and `build_dir`. -/
  | test (parameters : Option (List (Text × Text))) (buildDir : Option Text) (o : TestOpts)

/-- What a call leaves in the runner: everything is stored before the commands are made. runner.py:425-461, 533-545. -/
def Obj.call (s : Obj) : Call → Obj
  | .build b => ⟨some b, b.parameters, b.buildDir⟩
  | .test ps dir _ => { s with parameters := ps.getD s.parameters, buildDir := dir.getD s.buildDir }

/-- The commands of a call of `test` after other calls. -/
def testAfter (cfg : Cfg) (t : Tool) (cwd : Text) (calls : List Call) (ps : Option (List (Text × Text))) (dir : Option Text)
    (o : TestOpts) : PyM (List Command) :=
  let s := (calls.foldl Obj.call (Obj.new cwd)).call (.test ps dir o)
  testCmds cfg t s.last s.parameters s.buildDir o

end Verif.RunCmd
