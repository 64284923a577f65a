# Formal model of cocotb in Lean 4 — design

## 1. Technique and trusted base

* Every property is a theorem of Lean 4 (4.33.0) about a hand-written, executable, shallow
  model of the Python code in `/repo/src`. The kernel accepts each proof.
* Trusted: the Lean kernel; the standard axioms `propext`, `Classical.choice`, `Quot.sound`
  (no theorem depends on any other axiom); and the *reading* of the Python source into the
  definitions in `lean/Verif/Model/*` (each carries the file and lines it models).
* Not used: `sorry`, `admit`, own axioms, `native_decide`, `bv_decide`, `implemented_by`, `unsafe`.
* Python semantics assumed (and written down in `Verif/Py/*`): unbounded integers, `range`,
  list slicing, dict insertion order, deque operations, `int(s, 2)`, `format(n, "0wb")`,
  floor division and modulo, `str.upper/replace/translate/split/strip` on the characters used,
  single-threaded execution of the event loop, the `heapq` algorithm (`Py/Heapq`), CPython's
  digit-grouping algorithm for integer formats.
* Times are exact rationals in `Model/SimTime` and `Model/Clock`; `Model/NumTime` models the rounding of
  `float` and `Decimal` arithmetic (unbounded exponents, no infinities or NaN). The simulator may fire callbacks in any order and at any
  time; the one ordering assumption made (for C26) is stated in the theorem.
* The scheduler model (`Model/Sched`) takes one action at a time; its head lists its
  simplifications. User coroutines, callbacks and the simulator are arbitrary sequences of actions.
  `wait`, `TaskManager` and `Queue` run on that scheduler next to arbitrary other code; what the
  other code may not do (for instance touch the private event of the call) is listed at the head of
  `Model/Wait`, `Model/TaskManager` and `Model/Queue`.
* Signal handles (`Model/Handle`): the C layer is a parameter. It is assumed that a 32-bit integer
  write to an `n`-bit object stores the low `n` bits of the two's complement value and that a string
  write stores its characters; which writes it refuses and what reads return is arbitrary.
* Regression and test (`Model/Regression`, `Model/TestManager`): `random`, SHA-1, name matching and the
  sort's tie-breaking shuffle are parameters; a test's tasks are numbers, and what cleanup code does
  while tasks are cancelled is arbitrary within the actions listed at the head of the module. The
  regression model sees a test only through its start and its completion with a list of failures.
* Generated tests (`Model/Decorators`): values are known only as far as the naming rule distinguishes
  them; `str.isidentifier` is a parameter; arguments of wrong types are left out.
* Result files (`Model/XUnit`): element trees; the XML serialiser and parser are not modelled (a file is
  its tree). Times, dates, host name and tracebacks are parameters; `int()` is read on plain decimals only.
* Environment (`Model/Env`, `Py/Str`): `os.environ` is a partial function; the Unicode tables for `lower`
  and decimal digits beyond ASCII are parameters, with one assumption (`Unicode.Ok`: nothing beyond ASCII
  lowers to ASCII except the Kelvin sign); `str.casefold` is a parameter.
* `bridge`/`resume` (`Model/Bridge`): the event-loop thread and any number of bridge threads, interleaved at
  their accesses to shared state; tasks are reduced to what the bridge sees of them. Trusted: the GIL makes
  each of those accesses atomic, `threading.Condition` and `threading.Event` behave as documented.
* `ClockCycles`, `Combine`, `First`, `with_timeout` (`Model/Extended`): theorems about what a task's code
  awaited assume that the history follows that code (`ExtSpec.Follows`); for `with_timeout` that nobody
  else awaits its timer (`ExtSpec.Private`), which is true of an object created inside the call.
* Simulator objects (`Model/Vpi`, `Model/GpiStore`): the simulator is an arbitrary, fixed set of answers to the
  VPI queries; a VPI object has one number. Memory management and log messages are left out; an interface other
  than VPI is an arbitrary set of answers. C++ undefined behaviour is an undefined step of the model.
* pytest sessions (`Model/Pytest`): pytest itself is not modelled; the fixtures it sets up for each test, their
  order and when it tears them down are data, and every hook may raise. Reports are phase and outcome.
* Start and end of a simulation (`Model/Life`): the dynamic loader is a parameter; finishing in the simulator and finalize functions
  do not call back; the contents of user code, PyGPI included, are arbitrary.
* Values in the simulator (`Model/SimValue`): the simulator takes what it is given; how the VHPI formats bit types, and
  objects it represents in other formats than those of the standard, are left out.
* VHDL objects (`Model/Vhpi`, `Model/Fli`): the simulator is a set of arbitrary answers about kinds, types, constraints, names and
  relations; the FLI iterator is left out.
* Main program for Verilator (`Model/Verilator`): the loop of `main` and `settle_value_callbacks` over an arbitrary design and VPI. Not modelled: command line, tracing, coverage, the callback Verilator calls on fatal errors, the exit status. `vpiWorld` is what the loop relies on from `verilated_vpi.cpp`, which is not part of this code base.
* Versions (`Model/Versions`): `LooseVersion`, all classes of `sim_versions.py`, the decision of `Nvc.__init__`. Not modelled: `StrictVersion` (unused), `__repr__`, other operands than versions and strings.
* Life of a clock (`Model/ClockLife`): `Clock.start`, `Clock.stop`, the driver coroutines and `GpiClock` with their tasks, as events in any order the event loop and the simulator allow. A drive is the assignment; when it is applied is C46 and C47. Not modelled: failure of `clock_create` and of callback registration, two clocks on one signal.
* Arguments for pytest in the simulator (`Model/Shlex`): `shlex.split`, `shlex.quote` and `shlex.join` of CPython (POSIX mode, as used), `get_args`, and the three variables with arguments, node id and keywords. Not modelled: NUL characters (no argument or variable can have one), the other variables.
* Commands of the runner (`Model/RunCmd`): `_build_command` and `_test_command` of all runners with all their options, the attributes that outlive a call. The reading of options by the simulators (`Spec/RunCmd`) is taken from their manuals. Not modelled: processes and their execution, temporary files, the environment variables set on the way (see C87), type checks of arguments.
* Waveforms (`Model/Waves`): the options of the main program for Verilator, the dump module for Icarus Verilog, the attached file. Not modelled: the waveforms themselves, DSim.
* Options of the pytest plugin (`Model/PytestOpt`): the table of options, argparse's and pytest's reading of values for the kinds of options used, the environment, the exported variables. Not modelled: abbreviations of options, other plugins' options, the documentation texts.
* Fixture `hdl` (`Model/PytestHdl`): conversions of options, markers, `HDL.__init__`, `build`, `test`, the directory of a test on POSIX. Values of names are texts. Not modelled: xdist workers building in the scope of the session, creation of directories, hooks replacing the runner.
* Times as Python numbers (`Model/NumTime`): `_ldexp10`, `_get_sim_steps`, `_get_time_from_sim_steps`, `convert`,
  `get_sim_time`, `Timer.__init__` for `int`, `float`, `Fraction` and `Decimal`. Not modelled: limits of the exponents,
  infinities, NaN, other decimal contexts.
* Callbacks of the FLI (`Model/FliCb`): FliCbHdl.cpp, `FliProcessCbHdlCache`, the `register_…_callback` functions. Not
  modelled: start-up and shutdown callbacks, failure of `mti_` functions, the iterator of the FLI (`Model/Fli` and `Model/SimValue`
  cover lookup and values).
* Times through the GPI (`Model/GpiTime`): `register_timed_callback`, `get_sim_time`, `get_precision` and the functions of VPI,
  VHPI and FLI below them. Trusted: the simulator means by the halves and numbers what `Spec/GpiTime` says. Not modelled: errors of
  the simulator's functions, 32-bit machines (FLI), the precision without a simulator.
* The makefiles (`Model/Make`): the targets `sim`, `regression`, `clean`, the results file, the compiled design or script, and the
  directory, with their prerequisites and recipes, for all simulators; `check_results.py`. Trusted: GNU make remakes a target exactly
  if `mustRemake` says so; time advances with every command, so no two files have the same time. Not modelled: variables that select
  options, `debug`, the text of commands, `-k`, `-i` and `-t`.
* The summaries (`Model/Summary`): `_log_test_summary` with widths, colours and totals; the rows and counts of the pytest plugin's
  summary. Trusted: pytest's `pytest_report_teststatus` (`category`). Numbers with two decimals are given as texts. Not modelled: the
  widths and markup of the pytest table.
* Names of the interface libraries, the files of an installation, what runners and makefiles tell the simulator and
  write to `GPI_EXTRA` and `GPI_USERS` (`Model/Libs`). Not modelled: quoting by shell, make and Tcl, how simulators search
  for start-up functions, `lower` on letters other than A to Z.
* The interpreter inside the simulator: start and end of Python, calls from the simulator, pending exceptions, the
  variables of the native part (`Model/Embed`). The interpreter itself is a parameter: whether it starts, and how each
  piece of Python code ends. Not modelled: reference counts, log messages, threads.
* Decorated tests under pytest (`Model/PytestDeco`): the markers of `_compat.py`, and what the main process and the
  simulator collect. The semantics of pytest's own markers skip, xfail and parametrize is modelled from its documentation;
  the order of stages needs the plugin pytest-order and is not modelled.
* Values of fixtures, transport of reports and captured log messages under pytest (`Model/PytestFix`). pytest's cached
  results and `catching_logs` are modelled from its documentation; `--log-cli-level` and `--log-file-level` are not.
* Discovery and listing of tests (`Model/Discover`). Importing a module is given by the names it binds and deletes; regular
  expressions are arbitrary predicates; assertion rewriting is not modelled.
* Trigger objects (`Model/TrigObj`): which object an expression gives. Priming is modelled in `Model/Sched`.
* The command combine_results on a file system (`Model/Combine`), without symbolic links and with `iterdir` in a fixed order.
* Texts of values and tasks (`Model/Repr`, `Model/TaskRepr`). Strings in Python syntax are limited to printable ASCII without quotes
  and backslashes; the texts of triggers other than those that contain tasks are arbitrary.
* Coverage and profiling (`Model/Recorders`). The packages `coverage` and `cProfile` are taken to record what is run while switched on;
  that `pstats.Stats` refuses an empty profile is part of the model. Coverage of cocotb itself is not modelled.
* Times in reports under pytest (`Model/PytestTimes`). Durations of hooks and coroutines are given; times are whole steps and
  ticks, ratios exact. Not modelled: the conversion to the unit of the option, exceptions that end the session.
* Name, version and arguments of the simulator (`Model/SimInfo`). Not modelled: decoding of arguments, a simulator that
  changes its name.
* Paths in files of results (`Model/ResultPaths`). POSIX only; different spellings of one path are one key of the cache.
* The stand-in for `cocotb.top` during collection (`Model/MockTop`). Expressions without side effects; other values are integers and strings.
* The choice of a simulator and the registration of markers (`Model/SimChoice`). `shutil.which` is any predicate on commands; runners registered by other libraries are left out.
* The modules of a runner (`Model/RunnerModules`). Importing is the same function for pytest and for the simulation; POSIX names only.
* The time in log messages (`Model/LogTime`). Times are exact (no rounding to floats); the values of extra attributes and the levels are not modelled.
* Choosing tests (`Model/PytestSelect`). pytest's own matching of words and markers is given; names are in lower case.
* Warnings about indexing (`Model/IndexChange`). Indexing of cocotb 1.x is taken from the guide for the upgrade (a list for arrays, bits from the left with both ends for packed signals); filters for warnings are not modelled.
* Names of tasks (`Model/TaskName`). Names are texts; classes derived from `Task` directly, not from each other.
* Packages (`Model/Packages`), on top of `Model/GpiStore` and `Model/Vpi`. The early lookup of children with Icarus Verilog is not modelled.
* The terminal (`Model/Terminal`). Trusted: `_pytest/terminal.py` (which is not part of this code base) as written down in the model. Not modelled: warnings, deselected tests, statuses of other plugins.
* The language of the toplevel under pytest (`Model/HdlLang`). Session and test use the same simulator; hooks that replace `HDL` or the runner are not modelled.
* Variables of tasks (`Model/TaskLocals`). Names and values are numbers; which task runs when is an arbitrary history.
* Fixtures in the main process of pytest (`Model/MainFix`). Written from pytest's documentation: the order of setup is given, each fixture after those it requests; parametrised fixtures and teardown are left out; pytest is one that records `autouse` in the fixture.
* Logging (`Model/Log`, `Model/GpiLog`): of Python's `logging` the levels only; the texts of times, exceptions and stacks are
  given, a custom prefix is an arbitrary function.
* Shutdown (`Model/Shutdown`): what a callback does may depend on all earlier calls.

## 2. Layout

    lean/Verif/Py/*.lean      Python built-in semantics used by the code (range, int parsing, ...)
    lean/Verif/Model/*.lean   the model, one module per source file or cluster
    lean/Verif/Spec/*.lean    small independent specifications (what the English says)
    lean/Verif/Lemmas/*.lean  helper lemmas and invariants
    lean/Verif/Props/*.lean   the property theorems C01 ... with non-vacuity examples
    MANIFEST.json             property -> theorem names
    seeded/LOG.jsonl          seeded-bug experiments

Exceptions are values: a function that may raise returns `Except PyErr α`.
Mutating methods return the new state. Loops are structural recursion or folds. External
services (the simulator, random generator, user coroutines, regular expressions, SHA-1) are
parameters or environment choices over which theorems quantify.

## 3. Plan per property

| id | model | how proved |
|----|-------|-----------|
| C01-C03 | `Py/Range` (Python `range`), `Model/Range` | arithmetic + list induction; spec is the explicit list of integers |
| C04-C07 | `Model/Logic`, `Model/Resolve` | nine-element case analysis lifted to all strings/ints; expressions by induction |
| C08 | `Model/Resolve` | list induction; random resolver takes an arbitrary stream of bits |
| C09-C15 | `Model/LogicArray` + `Py/Int` (binary numerals, `int(s,2)` with sign) | numeral round-trip by induction on width |
| C16, C19 | `Model/LogicArray` (three caches) | refinement to `List Logic` by induction over call histories |
| C17, C21 | `Model/Array`, `Model/LogicArray` | list lemmas through the Range index bijection |
| C18 | `Model/LogicArray` | zipWith laws |
| C20 | `Model/Format` | digit-count lemmas |
| C22-C24, C69 | `Model/SimTime` over `Rat`/`Int` | floor/ceil/round arithmetic on exact rationals; floats in C138, C139 |
| C25, C26 | `Model/Clock`; `ClockCycles` also as a task of the scheduler (`Model/Extended`) | closed form of the waveform by induction on time; counting invariant over histories |
| C27-C33 | `Model/Sched` (event loop, tasks, triggers, events; user code adversarial) | invariants by induction over action lists |
| C34-C36 | `Model/Lock` on the scheduler | invariant + FIFO refinement; C36 is suspected false |
| C37-C40 | `Model/Queue`, `Py/Heapq` | refinement to multiset/list; wake-up invariant; C40 suspected false under cancellation |
| C41-C45 | `Model/Wait`, `Model/TaskManager` | state machines driven by arbitrary completion orders |
| C67, C68 | `Model/Extended` on `Model/Wait`; the code of a task is a function from how it was resumed to what it does next, and a history *follows* it | order of completions from the scheduler's log; the race between timer and result by the order of the ready queue |
| C82 | `Model/Sched` | invariant: one task stays ahead of the other in the ready queue |
| C46-C49, C75 | `Model/Handle` | refinement of the write dictionary to "last write" map |
| C50-C54 | `Model/Regression` | induction over test lists and outcomes |
| C55, C56 | `Model/TestManager` | invariant over event lists |
| C57-C59, C77 | `Model/Decorators`, `Py/Product` (`itertools.product`) | product as lexicographic enumeration; name parsing for distinctness; induction over decorator stacks |
| C60-C62 | `Model/XUnit`, `Py/Text` (code points) | list induction, code-point arithmetic |
| C63, C71, C78-C81 | `Model/Env`, `Py/Str` | list-of-characters lemmas |
| C64, C65 | `Model/Bridge` | thread state-machine invariant |
| C66 | `Model/Shutdown` | induction |
| C83, C84 | `Model/GpiCb` (callback handles of the VPI and VHPI layers, simulator adversarial) | invariants over histories, one callback at a time |
| C85, C86 | `Model/Runner` (`test`: commands, results file and environment as values) | case analysis; reads of the environment after all updates |
| C87 | `Model/Runner` and `Py/Regex` (parser and matching of regular expressions as relations) | parse of the escaped names, matching characterised for all texts |
| C88 | `Model/Runner` (literal and Tcl quoting), readers of the three languages in `Spec/Runner` | round trips by induction on the text |
| C89, C90 | `Model/Runner` (`_build_command` of ten runners; files with times) | case analysis per runner; invariant over histories of edits and builds |
| C91, C92 | `Model/GpiStore` (handle map, histories of calls), `Model/Vpi` (VPI lookups over an arbitrary simulator database) | invariant of the handle map; every handle stands for one path of the design, paths are recovered from full names |
| C93 | `Model/Vpi` (`get_child_by_name`, `get_child_by_index`) | case analysis |
| C94 | `Model/Vpi` (`VpiIterator`, `create_gpi_obj_from_handle`) | induction over paths, under the naming rules of `Spec/Gpi.Regular` |
| C95 | `Model/GpiStore` (`gpi_get_child_by_name`, `gpi_next`) | induction over the list of interfaces and answers |
| C96 | `Model/Vpi` (`to_gpi_objtype`, `initialise`) | case analysis |
| C97 | `Model/GpiStore` (`exec` is partial where C++ is undefined) | invariant over histories |
| C98, C102 | `Model/Pytest` (the regression manager of the pytest plugin as a state machine; hooks and code adversarial) | a complete session is computed from the items (`Spec/Pytest.sessionTrace`); simulation of an interfered session by it up to the first exception |
| C99-C101, C103 | `Model/Pytest` | the events of one item in the specified session; permutation and order of finalizers by induction over items |
| C104, C105 | `Model/PytestId` (the two functions that rewrite node ids, on texts) | node ids are joined parts (`Spec/PytestId`); joined parts can be read again, so equal results have equal parts; scanning of the replacements by induction |
| C106-C108 | `Model/Log` (the formatter on texts; regular expression, `splitlines` and f-strings written out; the text of the time and of exceptions given) | texts for a terminal are sequences of characters and codes (`Spec/Log`), which can be read in one way only; splitting and joining of lines as a replacement |
| C109 | `Model/GpiLog` (levels of loggers, the copy in C++) | levels as the last ones given (`Spec/GpiLog`); invariant for the copy over all histories |
| C110, C111 | `Model/GpiLog` (the buffer; the variables) | induction over messages; cases |
| C112-C115, C118 | `Model/Life` (start, end and clean-up in the GPI as a machine with an explicit stack; simulator and user code adversarial) | invariants over histories; shape of the stack |
| C116, C117 | `Model/Life` (loading of libraries, on texts) | lists of entries are written down and read again, by induction |
| C119-C122 | `Model/SimValue` (conversion of values in VHPI, FLI and VPI), composed with `Model/Handle` | loops over bits and characters by induction; composition of Python conversion, C++ conversion and reading |
| C123-C125 | `Model/Vhpi`, `Model/Fli` (classification, lookup by name and index, iteration in VHPI and FLI) over an abstract simulator; `Spec/Vhpi` (arrays in row-major order, enumeration types, generate loops) | induction over the dimensions of an array; texts of names with their indices; cases of the classification |
| C126 | `Model/Handle` with `Model/Vhpi` and `Model/Fli` | invariant of all histories: every value written or to be written is for an object that is not constant |
| C127 | `Model/Verilator` | the main program as a machine over an arbitrary design; invariant by place in the program relates the history to a grammar of time steps |
| C128 | `Model/Versions` | induction on strings against a grammar of components; lexicographic order by induction on lists |
| C129 | `Model/ClockLife` | invariant over all histories relating the drives of each run to the waveform of C25 and its next callback to the next drive |
| C130 | `Model/Shlex` | grammar of command lines (`Spec/Shlex`), equivalent to the state machine of `shlex` by induction on the text; quoting gives words of the grammar |
| C131 | `Model/RunCmd` | readers for the options of each simulator (`Spec/RunCmd`); every piece of every command is read on its own |
| C132 | `Model/RunCmd` | the same readers; histories of calls by induction |
| C133 | `Model/Waves` | grammar of the command line of the Verilator program (`Spec/Waves`), induction on it; the file each simulator writes against the one attached |
| C134 | `Model/PytestOpt` | relations for what each source gives (`Spec/PytestOpt`); the table of options is closed under the rules |
| C135 | `Model/PytestHdl` | arguments of the runner described field by field (`Spec/PytestHdl`), induction over the markers |
| C136 | `Model/PytestHdl` | relations for default names (`Spec/PytestDir`); directories of ids built from path, names and parameters, injectivity |
| C137 | `Model/RunCmd` | each command against the command of the same build without arguments (`Spec/BuildArgs`); words behind a flag |
| C138, C139 | `Model/NumTime`: the functions of `Model/SimTime` with typed numbers and rounding to 53 binary or 28 decimal digits | rounding is nearest, monotone, exact on representable numbers (`Lemmas/NumTime`); error bounds |
| C140 | `Model/FliCb`: the five caches, `arm`/`run`/`remove` of the process callbacks, with the simulator as an arbitrary environment | invariants over all steps (`Lemmas/FliCb`, `FliCbLog`, `FliCbRun`); the log is specified without the objects |
| C141 | `Model/GpiTime`: conversions of delays, times and the precision on the way through bind.cpp and the three interfaces, on bit vectors | arithmetic of halves; end to end with C22 and C138 |
| C142 | `Model/Make`: the rules of the simulator makefiles, GNU make's remaking by times, commands with arbitrary outcomes | the recipes of the results file step by step |
| C143 | the same, `make regression` | the prerequisites only compile; then remade or not |
| C144 | the same, histories of edits, cleaning and invocations | invariant: compiled designs and results are current or older than an input |
| C145 | `Model/Summary`: the lines of the summary as texts; `Model/Regression` for the results | the table is read back by columns; C50 and C51 for the counters |
| C146 | `Model/Summary`: reports, categories of pytest, rows and counts | the reports of one test have one category with a row |
| C147 | `Model/Vpi`: index lookup and pseudo-handles | induction over the indices; the number of brackets in the name is the number of indices |
| C148 | `Model/Libs`: library names of config.py, libraries built by cocotb_build_libs.py | membership of both name lists reduces texts to a table, the table is decided by the kernel; paths by cancellation |
| C149 | `Model/Libs`: interfaces and `GPI_EXTRA` of each runner, composed with `Life.entryPoint` and `Runner.testEnv` | induction over the list of interfaces; the written variable parses back to the list |
| C150 | `Model/Libs`: interfaces of the makefiles, composed with `Life.entryPoint` | cases on the makefile and its variables, paths arbitrary |
| C151 | `Model/Embed`: the path and the start of the interpreter in embed.cpp | the buffer of the path by list lemmas; induction over the rest of the history |
| C152 | `Model/Embed`: a stack of running Python code, the pending exception, what is registered, as a machine over the calls of simulator and Python | invariant of the machine, by induction over the history |
| C153 | `Model/Embed`: how embed.cpp and GpiCommon.cpp read their variables | induction over the texts, tables by cases |
| C154 | `Model/Embed`: the same machine with and without the variable | the two runs move in step, by induction over the history |
| C155 | `Model/PytestDeco`: the markers made from a decorated function, what pytest makes of them; compared with the verdicts of the regression manager | case analysis over the ways a test ends |
| C156 | `Model/PytestDeco`: pytest's parametrize over the markers, compared with the generated tests of `Model/Deco` | induction over the options |
| C157 | `Model/PytestDeco`: which functions of which modules the two processes collect | case analysis per function, induction over modules for counts |
| C158 | `Model/PytestFix`: cached results, waiting setups and arguments over a sequence of tests | invariant of the cache, by induction over fixtures and tests |
| C159 | `Model/PytestFix`: the loop of attempts of the sender, the loop of the receiver | induction over attempts and messages |
| C160 | `Model/PytestFix`: level and handlers of the root logger during a phase | equations for the messages logged, induction over the coroutines |
| C161 | `Model/Discover`: names bound by a module, the loops of `discover_tests` | invariant of the dictionary of names, induction over statements and modules |
| C162 | `Model/Discover`: `_setup_regression_manager` and `_run_regression` on an environment | the two runs share their set-up; permutations for sorting and shuffling |
| C163 | `Model/TrigObj`: cached properties of handles, constructors of triggers, singletons | invariant of the objects kept, induction over the expressions |
| C164 | `Model/Combine`: a tree of directories, `_find_all`, reading and writing files | mutual induction over the tree; C62 for the contents |
| C165 | `Model/LADeprecated`: the setters as whole-slice assignments | refinement to the element list (`Rep`), using C09, C10, C13, C15 |
| C166 | `Model/Repr`: the texts; `Spec/Repr`: an evaluator for Python expressions | mutual induction over nested values, a lemma for each kind of expression |
| C167 | `Model/TaskRepr`: `Task.__repr__` with a bound on the depth of calls | a text exists for some bound exactly if waiting is well-founded; induction over bound and accessibility |
| C168 | `Model/Recorders`: start-up, calls from the simulator and `_shutdown` over what is recorded and written | closed form of the folds; cases over what is enabled |
| C169 | `Model/Paths`: the lookups of `Model/Hierarchy` with the path given to each new object; `Spec/Paths`: ways through the design and their texts | invariant over all histories: every object's path is the text of a way; texts of ways over identifiers determine their keys |
| C170 | `Model/FliIter`: the iterator as a state machine (relation, handles left, relations left) over the database of `Model/Fli`; `Spec/FliIter`: regions and records whose parts can be looked up | by induction over the calls the results are a prefix of a list of all handles; each entry is compared with `get_child_by_name` or `get_child_by_index` |
| C171 | `Model/Tracebacks`: exception objects with tracebacks that grow in front, `_resume` branch by branch, `remove_traceback_frames`; `Spec/Tracebacks`: the way of an exception through tasks | invariant over all possible histories; frames are only added in front |
| C172 | `Model/PytestTimes`: the regression manager of the plugin with simulation time and clock; `Spec/PytestTimes`: what the times mean, read from the trace before a report | invariant within and between phases, induction over coroutines and items |
| C173 | `Model/SimInfo`: the cached answers of the three interfaces over a simulator that may fail and reuse memory | invariant of the caches over sequences of queries; the loop over the arguments with its memory by induction |
| C174 | `Model/ResultPaths`: paths as components over any `resolve` that is idempotent, the cache, the replacement in texts; `Spec/ResultPaths`: where a path leads | prefixes of lists; the cache by induction over calls; replacement by induction over the text |
| C175 | `Model/MockTop`: an evaluator of expressions with the methods of `MockSimHandle` as Python finds them; `Spec/MockTop`: which expressions are handles, numbers and plain | induction over expressions |
| C176 | `Model/SimChoice`: `_get_simulator`, `get_runner` and the commands runners look for; `Spec/SimChoice`: order of preference | induction over the table, then tables |
| C177 | `Model/SimChoice`: the descriptions of markers and how pytest reads the name from them | prefixes of texts, then the table of markers |
| C178 | `Model/RunnerModules`: the markers read by the collector and by the fixture, and the files; `Spec/RunnerModules`: the nearest marker | induction over nodes and markers |
| C179 | `Model/LogTime`: records, filters, chains of handlers and the text of a time; `Spec/LogTime`: the time at which a message was logged | invariant over histories; rounding of rationals |
| C180 | `Model/PytestSelect`: the names of runners and tests, what is sent to the simulator, the two choices; `Spec/PytestSelect`: truth of expressions | induction over expressions and texts |
| C181 | `Model/IndexChange`: `indexing_changed`, the marks of values from handles, the warnings of reads; `Spec/IndexChange`: indexing of cocotb 1.x | positions in ranges |
| C182 | `Model/TaskName`: the counters of the classes, names, the cached logger; `Spec/TaskName`: the name given last | invariant over histories |
| C183 | `Model/Packages`: the loop of `_process_packages` over the GPI of `Model/GpiStore`; `Spec/Packages`: the packages of a design | induction over the iteration |
| C184 | `Model/Terminal`: the categories that the plugin gives reports and what pytest shows of each; `Spec/Terminal`: where failures belong | case analysis of reports, counting |
| C185 | `Model/HdlLang`: the fixture `hdl`, the language in `HDL.__init__` and `HDL.test`, over `checkLang` of `Model/Runner` | case analysis |
| C186 | `Model/TaskLocals`: `Task.locals`, `current_task` and the current task in `_resume` as a state machine over histories | invariant by induction over histories: each variable holds the value last set for its task |
| C187 | `Model/MainFix`: `Controller.pytest_fixture_setup` under pytest's `FixtureDef.execute` with its cache, sessions of tests | simulation between the session with and without the skipped fixtures; invariants over sessions |
| C70, C76 | `Model/Hierarchy` | invariant over lookup histories |
| C72 | `Model/Array` (index warning) | case analysis on the index |
| C73 | `Model/SimTime` (integral conversion) | arithmetic |
| C74 | `Model/Sched` (`current_task`) | invariant over action lists |

Properties that the unchanged code violates are settled by a proved negation with a concrete
witness and a `_partial` theorem for what does hold; section 5 lists them.

## 4. Not modelled

What each model leaves out is said in section 1 and in the comments of its definitions. Left out altogether:

* the simulator (an arbitrary environment that answers the calls of VPI, VHPI and FLI; what is relied on is a hypothesis of the theorem),
  the HDL files under `tests`, examples and documentation;
* CPython, pytest, argparse, shlex, `coverage` and `cProfile` where a model does not write their functions down; what is written down of
  them is trusted to be what they do, since their sources are not part of this code base;
* floating-point rounding where times are exact in the model, wall-clock time, memory and reference counts;
* the IPython prompt (`cocotb_tools/ipython_support.py`), coverage of cocotb itself (`cocotb_tools/_coverage.py`), `cocotb-config` except
  the names and paths of libraries, `StrictVersion` of the vendored `distutils`;
* deprecated aliases that only warn (`cocotb.result`, `cocotb.utils`, `cocotb.triggers.Join`); drivers and loads of signals;
* quoting by shells and by make, and processes except their exit status and environment.

## 5. Disagreements between the properties and the code

Each is a proved negation of the `…_full` statement beside the `…_partial` theorem.

<!-- generated from the manifest notes -->

* **C02.** Full bounded form is false of the code (missing bounds are replaced by range values used as positions): C02_bounded_counterexample. Proved: unbounded form, and bounded form with both bounds given.
* **C07.** Full agreement is false of the code: with COCOTB_RESOLVE_X=ones (or random) int(Logic('X')) can be 1 while bool(Logic('X')) is False (C07_agree_counterexample). Proved: no-resolver case completely; agreement for error/weak/zeros and for all values with a Boolean meaning under every resolver.
* **C14.** Full statement is false of the code: int(s, 2) reads a leading '-' element as a sign, so to_unsigned() of '-1' is -1 (C14_counterexample; C14_dash says exactly what happens). Proved: every array whose leftmost element is not '-'.
* **C16.** Full statement is false of the code: == between two arrays with cached integers compares the integers, so LogicArray('L') == from_unsigned(0,1) changes from False to True after int() was called (C16_counterexample, C16_counterexample_run). Proved for every program whose == comparisons involve no L, H or - elements; all other methods unrestricted.
* **C19.** Full statement is false of the code (C19_counterexample, same cause as C16). Proved: reflexivity always; structural equality, symmetry, transitivity for arrays without L, H, -, and for all arrays when one operand has no cached integer; comparison with strings and lists always.
* **C20.** Full statement is false of the code for '#_o': separators are counted after adding the prefix length (C20_grouping_counterexample). Proved for every other presentation.
* **C23.** Proved for exact arithmetic. The result in a unit other than steps is a float: exactness is false beyond 53 bits (C139_exact_counterexample); C139_convert says what is returned.
* **C25.** 'accepted parameters give phases of at least one step' is false of the constructor: period_high=0 is accepted and fails only at start (C25_accept_counterexample); with the GPI implementation counts of 2^64 and more wrap (C25_gpi_overflow). Everything else is proved: the exact waveform at every time for both implementations, and which starts are rejected.
* **C28.** 'A waiting task is registered with exactly one trigger' is false in histories in which the simulator refuses to arm a callback: the stale registration stays (C28_registered_once_counterexample). Proved for all other histories; the once-per-wait resumption and single queue entry are proved for all histories.
* **C30.** 'Every callback exactly once' is false for a callback added while the task is announcing its completion: it is called at once and then again (C30_every_callback_once_counterexample). Proved for callbacks registered before the task is done; announcement to waiters is proved in full.
* **C32.** 'Armed exactly while somebody waits' is false after the simulator once refused to arm the trigger (C32_armed_iff_waiters_counterexample). Proved for histories without such a refusal; the wake-up parts are proved for all histories.
* **C36.** False in full: a lock granted to a task which is cancelled before it runs again stays locked (C36_not_stranded_counterexample). Proved: cancelling an acquire that still waits withdraws it for good, and a free lock is obtained without blocking.
* **C40.** The full statement is false of the code (C40_no_lost_wakeup_counterexample): a wake-up given to a waiter that has been cancelled but has not run yet is lost. Proved for all histories that do not cancel a task inside put/get and kill one only while it has not been woken (finished tasks still in the line are covered).
* **C43.** Returning, index, cancellation and user tasks: proved for every reachable state. 'Leaves nothing running' is false of the code for a caller cancelled twice before it runs (counterexample proved) or killed; proved otherwise.
* **C44.** Leaving the block normally or with the group happens only when every child is done (C44_returns_only_when_done, unconditional). The full statement for every way of leaving is false of the code: counterexamples are proved (a task cancelled twice before it runs is closed in __aexit__ with children running; 'Reached unreachable code' is reachable). C44_leaves_only_when_done_partial proves it for histories in which the block's task is not cancelled again before it has dealt with an earlier cancellation, is not killed and lets CancelledError out, except for fatal exceptions.
* **C45.** Group contents, cancellations, delivery and start_soon's refusals are proved for all histories. That failures are reported however the block is left is false of the code (failures are dropped when the waiting block is cancelled): C45_reported_counterexample; C45_reported_partial covers the ways of leaving that do not propagate a cancellation, a closure or a fatal exception.
* **C46.** The history theorem (C46_history) is unconditional. 'Last write wins' is false of the code when Deposit and Immediate/other actions are mixed: a pending Deposit followed by an Immediate write is applied later and overrides the newer value (C46_mixed_actions_counterexample). Proved when all writes to an object in a phase use the same action.
* **C47.** Deferral, direct writes, read-only rejection and phase changes are proved. False of the code: setimmediatevalue outside the read-write phase is deferred because its action is an enum alias of Deposit (C47_setimmediatevalue_counterexample); a value accepted by the handle but refused by the C layer stops every write queued behind it (C47_refused_counterexample). Both have _partial theorems.
* **C48.** False for signed enums beyond 32 bits: a negative value becomes a '-...' string (C48_enum_int_counterexample). Proved for logic, logic array and integer objects, and for all other enums.
* **C49.** Acceptance, element order, reading and length checks are proved. 'A refused assignment has no effect' is false of the code for nested arrays: rows before the bad one have been written (C49_refused_without_effect_counterexample); C49_length_mismatch proves it for the outer dimension.
* **C50.** Order, exactly-once recording, single tear-down and progress are proved for every history. False of the code: when the simulator ends between two tests (a test is made but waits for its Timer(1)), cancelling the unstarted test completes nothing, so the remaining tests are never recorded and no report is written (C50_sim_end_counterexample); proved for the end of the simulation while a test runs or after the last one (C50_sim_end_partial).
* **C53.** False of the code in two ways: a test that fails to initialise counts as a failure but does not stop the regression (C53_limit_counterexample_init), and a test that never ran is recorded as an expected failure when its expect_error covers the internal exception, for instance BaseException (C53_limit_counterexample_expected). Proved otherwise.
* **C55.** Proved for all histories: at most one completion, only after every task has ended, only if something ended the test. The claim that a test that is ended completes at once is false of the code in two cases, both proved as counterexamples: a task that kills the main task is itself running, so cancelling it raises out of the shutdown, which is then abandoned for good although it is marked as begun; and a task started by the cleanup code of a task being cancelled is not cancelled itself. Without those (C55_shutdown_partial) the claim holds; with the second alone it holds once those tasks have ended (C55_shutdown_late). A test that is cancelled before it is started never completes (see C50_sim_end).
* **C56.** The full claim is false of the code in two cases, both proved as counterexamples: a failing task that another task waits for through the deprecated join() counts as unhandled, because only await registers with the trigger that is looked at; and if the last task left of a test being shut down (one started by cleanup code) fails, the test completes before that failure is recorded. Without those the verdict is exactly the list of unhandled failures in order. Tasks made with Task(...) directly are not registered with the test and are not modelled.
* **C58.** The naming rule is proved for all options. That different labels give different names is false of the code when labels contain slashes, for instance through Param names (C58_distinct_counterexample), and different values can have the same label, for instance True and 'True' (C58_values_counterexample). Without slashes names are distinct whenever labels are (C58_distinct_partial). TestFactory names are always distinct.
* **C60.** Legality of escaped text, one escape per character, unchanged text up to U+FFFF and removal of the base directory are proved. False of the code: legal characters beyond U+FFFF are escaped, because the pattern writes \u10000 with a four-digit escape (C60_unchanged_counterexample), and values of properties and attachments are written unescaped (C60_report_counterexample).
* **C62.** Every test case is kept once under its suite and the exit code is proved. The totals are false of the code: suites merged under one name keep the attributes of the first, so get_results misses tests and failures of the later ones (C62_totals_counterexample); proved when suite names are distinct.
* **C64.** Proved for every interleaving: a thread that made a resume call is inside it until the coroutine is over, each call is made, started, finished and delivered at most once and in that order with one and the same outcome, and running threads are known to the event loop. False of the code: a thread whose call is over runs at once while the event loop runs further callbacks (C64_exclusive_counterexample), by a race it can even run while the simulator has control (C64_simulator_counterexample), and a thread whose call's task is cancelled before it ran is never woken (C64_always_delivered_counterexample). C64_exclusive_partial: turns are taken if the operating system runs bridge threads only while the event-loop thread is blocked on them.
* **C65.** Exactly-once delivery in order is proved for every interleaving. 'Not idle while a thread is able to run' is false of the code: pending_threads is shortened while it is iterated over, so the thread after a finished one is skipped, and stays unstarted if the finished thread's task was cancelled (C65_not_idle_counterexample). Proved when no task awaiting a bridged function is cancelled and threads run only while they are waited for.
* **C66.** Order and uniqueness are proved for every history; completeness when no callback raises. False of the code otherwise: an exception in a callback leaves the loop, and the later callbacks are not called (C66_counterexample).
* **C69.** get_sim_time('step') is proved in full. In other units the exact scaling is proved for exact arithmetic; the float returned is only the closest one (C139_nearest), see C139_exact_counterexample.
* **C70.** Two parts are false of the code: an object found with GPIDiscovery.NATIVE is replaced when the children are listed (C70_same_object_counterexample), and a child looked up in another spelling where the simulator ignores case is visited twice (C70_iteration_counterexample). Proved for everything else: identity without NATIVE lookups (and with them as long as nothing is listed), errors for absent children, exactly-once iteration when each child has one spelling.
* **C72.** Full statement is false of the code: with the warning enabled arr[8] of an '8 to 11' array raises IndexError because the warning text indexes the range by position (C72_counterexample). Proved: for ranges n-1 downto 0 and 0 to n-1 the results agree, for indices (C72_partial) and slices (C72_slice_partial); for values of packed signals they always agree (C72_logic, C72_logic_slice).
* **C73.** Full statement is false of the code: a fractional value with unit 'step' is returned unrounded and unchecked (C73_counterexample). Proved for every other unit.
* **C74.** False when the immediate cancellation used by the test manager runs inside another coroutine: afterwards there is no current task (C74_current_task_counterexample). Proved for all other histories.
* **C76.** 'Every block is visited' is false for negative indexes (C76_all_blocks_counterexample): the index pattern does not accept a sign. Order, uniqueness, identity and completeness for non-negative indexes are proved.
* **C79.** Selection up to case, the fallback, the error and cocotb.tops are proved. False of the code: with two top-level objects whose names differ only in case, the later replaces the earlier, so an exact name can select the wrong object (C79_exact_counterexample); proved when no two names differ only in case.
* **C80.** Lists and flags are proved. False of the code: blanks around a flag make it an unknown feature, because this variable is read without stripping (C80_flag_counterexample).
* **C83.** Proved for every history: not called if removed, called only if the simulator called back, a fired one-shot callback is run or removed before control goes back, and one-shot callbacks of VPI simulators other than Verilator are called at most once and not used after being freed. False of the code for value-change callbacks, three proved counterexamples: a signal that changes twice while callbacks are queued puts its callback in the queue twice, the second time it has been freed; a queued value-change callback that is removed is freed although the simulator still has it; without the queue a nested change calls the function again. C83_once_partial covers every callback that is spared these.
* **C84.** False of the code in builds with the queue: the value of the signal is only read when the queue is drained, so a signal that rises and falls within one reaction does not wake a RisingEdge (C84_edge_seen_counterexample). Proved for edges reported outside a reaction, and for all edges in builds without the queue.
* **C85.** What a pass under pytest means, and that old results do not matter, is proved. False of the code: a simulator that ends with code 0 and leaves no results makes the process exit with code 0 (C85_failure_code_counterexample; proved otherwise), and the exit code of a failing simulator is never used, because the exception that would carry it is not the one raised (C85_simulator_code_counterexample). Outside pytest results are not looked at (C85_script_returns_iff).
* **C86.** Modules, top level, language and results file always arrive, and nothing leaks from earlier calls. False of the code: a variable of the runner's own environment overrides seed, filter and extra_env (C86_explicit_counterexample); proved for variables that are not set there.
* **C87.** Exactly which full names match is proved for all names and texts (C87_selected_iff). False of the code: a name also selects every test whose full name ends in it after a dot earlier in the name, such as my_test_a for test_a (C87_testcase_counterexample). Proved: named tests are run, and only those if no name is the end of another full name.
* **C88.** Proved: SystemVerilog strings, integers, Booleans and non-empty logic arrays; VHDL Booleans, integers and strings of graphic characters; Tcl words without [ $ ;. False of the code: the empty LogicArray becomes 0'b, VHDL logic arrays are written without quotes and so coincide with integers, and [, $, ; and the empty value are not quoted for Tcl (counterexamples proved). Floats are not modelled.
* **C89.** Order and completeness of sources, tags and the inferred language are proved for all ten runners. False of the code: the QuestaQIS runner does not look at tags, so unsupported sources are passed on (C89_unsupported_refused_counterexample); Xcelium, VCS and QuestaQIS pass arguments tagged with one language to the compilation of all files (C89_args_counterexample). Proved for the other runners.
* **C90.** False of the code: a build with other arguments is skipped if no source is newer (C90_up_to_date_counterexample), so is one after an edit within the resolution of file times (C90_up_to_date_counterexample_time). Proved for repeated builds with the same arguments and edits at later times, and with always=True for every history. Included files are not among the dependencies and not modelled.
* **C91.** False of the code for lookups with discovery_method=NATIVE, which give a new handle every time (C91_identity_counterexample). Proved for all other calls, all interfaces and histories. That objects with equal full names are the same object is C92.
* **C92.** False of the code: a dotted name (dut['u1.u2']) leaves an object of the wrong type under the full name, which later lookups get (C92_history_counterexample), and objects whose bounds the simulator does not give all share one handle (C92_unknown_counterexample). Proved for simple names in a simulator that lists what it finds by name (Consistent; implied by the naming rules Regular), with the VPI as the only interface.
* **C93.** False of the code: the label of the requested name is compared without its index, so dut['g[7]'] is found if g[0] exists (C93_absent_counterexample). Proved for names without brackets and for all indices.
* **C94.** False of the code: a generate block named like the instance it is in is listed as the instance (C94_listing_counterexample). Proved for regular simulators, where this does not happen; Xcelium's own lookup rule is left out.
* **C96.** False of the code: a packed array with several dimensions reports the bounds of the first and the number of all bits (C96_vector_counterexample). Proved for arrays and for vectors of one dimension.
* **C97.** False of the code: iterating over a generate block of an interface reads an uninitialised variable (C97_interface_counterexample), a package with a one-letter full name raises an uncaught C++ exception (C97_package_counterexample), and next on an ended iterator uses freed memory (C97_exhausted). Proved without those.
* **C99.** False of the code: when several asynchronous fixtures are torn down after a test, only the report of the last is logged, so a failure of another is lost (C99_failures_counterexample), as is that of a plain fixture's teardown when an asynchronous one follows (C99_failures_counterexample_plain). Proved for setups, calls, last teardowns, and sessions with plain fixtures only.
* **C100.** False of the code: if a task started by the setup of a generator fixture has ended by the time of teardown, entering it into the teardown's manager raises KeyError and the teardown code never runs (C100_teardown_counterexample). Proved for all other sessions.
* **C101.** False of the code: a plain fixture is set up before an asynchronous one it comes after (C101_setup_counterexample) and torn down before an asynchronous one that comes after it (C101_teardown_counterexample). Proved: setups if plain fixtures come first; teardowns of tests with fixtures of one kind.
* **C102.** Once and status are proved for all sessions. False of the code: the simulator is not stopped if a hook raises while the session is finished (C102_stop_counterexample); if the simulation ends early nothing is finished, as the callback for it is never registered (C102_premature_counterexample). Proved: the simulator is stopped if those two hooks do not raise.
* **C103.** False of the code for teardown, which runs with the state from before the test, and so depends on the teardowns of earlier tests (C103_random_counterexample). Proved for setup and call.
* **C104.** False of the code: a directory that merely begins with the name of the runner's directory is taken for a part of it (C104_distinct_counterexample), and a class in the runner's module can be called like a module (C104_class_counterexample). Proved outside of these cases and for files other than py.py, with both runners nested equally deep in classes.
* **C105.** False of the code: parameters with dots, slashes or colons cut the name (C105_name_counterexample), and class name and name do not identify the test (C105_distinct_counterexample). Proved: the name is that of the function if it has none of these.
* **C106.** False of the code: texts of exceptions are not stripped (C106_no_code_counterexample), removing a code can make another (C106_nested_counterexample), and a line feed at the end of a message adds a line with colours only (C106_colour_counterexample). Proved for messages made of characters and complete codes, exceptions without codes, and lines ended by line feeds, none at the end.
* **C107.** False of the code: an empty last line is dropped (C107_lines_counterexample), an empty line precedes a stack without an exception (C107_stack_counterexample), other line ends count in messages of several lines only (C107_return_counterexample), and from a simulation time of 1 ms on the lines are not aligned (C107_aligned_counterexample). Proved otherwise.
* **C108.** False of the code for widths below 3 (C108_width_counterexample); proved for all others.
* **C109.** Proved for all histories: nothing is logged that is not to be logged. False of the code: messages of other loggers are dropped by the level of `gpi` (C109_level_counterexample), and changes of the root logger are not noticed if `gpi` has no level (C109_root_counterexample). Proved otherwise.
* **C110.** Proved for lengths and histories. False of the code: a message Python cannot take is used as a format by the fallback (C110_shown_counterexample).
* **C111.** False of the code: NO_COLOR set to blanks counts as not set (C111_colour_counterexample). Proved otherwise.
* **C113.** False of the code: a callback after the request to finish cleans up again (C113_once_counterexample). Proved otherwise.
* **C114.** False of the code: callbacks that come after the request to finish are called (C114_nothing_after_counterexample), and a callback within user code cleans up while that is running (the two other counterexamples). Proved for simulators that do not call back after they were told to finish, with a queue of callbacks or without callbacks within user code.
* **C115.** Proved for start functions. False of the code: end functions are not called if user code asks for the end (C115_ends_counterexample), and several times after several errors (C115_ends_twice_counterexample). Proved: once for each end by the simulator or error, in order, before the request to finish.
* **C116.** False of the code: without GPI_USERS the simulation goes on (C116_failure_stops_counterexample); an empty entry is loaded as a library (C116_trailing_counterexample). Proved otherwise.
* **C118.** Order and completeness are proved. One function at a time is false of VHPI and FLI, which have no queue (C118_one_at_a_time_counterexample); proved with a queue (VPI), and if the simulator calls back only when no user code is running.
* **C119.** Proved for std_logic. False of the code for bit in the FLI: an X is accepted and stored as 0 (C119_fli_bits_counterexample); proved for 0 and 1. Bit types in the VHPI are not claimed.
* **C120.** False of the code: integers of 64 bits are accepted and dropped in the VHPI (C120_vhpi_long_counterexample); enumerations in the FLI are one bit wide for Python, so that the third literal can neither be written nor read (C120_fli_enum_counterexample), and their range check is off by one (C120_fli_enum_range_counterexample); characters from 128 on are not accepted (C120_vhpi_char_counterexample); negative positions are handed to the VHPI (C120_vhpi_enum_range_counterexample); the least integer cannot be forced in the FLI (C120_fli_integer_counterexample). Proved otherwise.
* **C122.** The exceptions are characterised exactly: integers of 64 bits in the VHPI; forced or released variables, forced reals and -1 for enumerations in the FLI are accepted by Python and dropped.
* **C123.** Proved for every element. False of the code: an index outside an inner dimension gives another element (C123_vhpi_beyond_counterexample); below a record the second dimension is counted as the first (C123_vhpi_named_counterexample); null ranges are seen reversed with Questa (C123_vhpi_range_counterexample). Proved for one dimension, objects that are not below records, and ranges that are not null.
* **C124.** False of the code: VHPI looks at a few literals only, so that other types with those literals are taken for logic (C124_vhpi_counterexample); FLI takes every type of 256 literals for character (C124_fli_counterexample). Proved for the other types.
* **C125.** False of the code: a missing element of a record is asked for with a NULL handle (C125_vhpi_defined_counterexample); blocks of a loop that do not exist are found by name (C125_vhpi_exists_counterexample, C125_fli_exists_counterexample); an instance looked up in other case is taken for a loop (C125_vhpi_case_counterexample); a loop with the name of the region around it is taken for that region (C125_vhpi_loop_counterexample, C125_fli_loop_counterexample); NVC gives other full names in iteration (C125_vhpi_iter_counterexample). Proved otherwise. The FLI iterator is not modelled.
* **C126.** False of the code: arrays of other things than bits and characters are never called constants (C126_vhpi_counterexample, C126_fli_counterexample), and an assignment to an array does not look whether its elements are constants, so that constant arrays are written (C126_handle_counterexample). Proved for all other objects. VPI is not claimed.
* **C127.** False of the code only for ReadWrite in the same time step: the loop goes round again only if an evaluation is needed, so a ReadWrite registered during the ReadWrite phase without a write is not called in this time step (C127_read_write_counterexample, with a model of Verilator's VPI where registering a callback does not ask for an evaluation); proved if a callback that registers ReadWrite also writes. Everything else is proved for every design.
* **C128.** False of the code: versions whose first difference is between a number and a text raise TypeError (C128_comparable_counterexample, e.g. Active-HDL 10.5a.12 and 10.5.216), and a string compared with a QuestaVersion is parsed without dropping its second part (C128_string_counterexample). Everything else is proved for all strings.
* **C129.** False of the code: a GPI clock whose task is cancelled (stop() or cancel()) before it has been run for the first time goes on toggling, since the coroutine that stops it in its finally block is never entered (C129_stop_counterexample), and it disturbs the next run (C129_value_counterexample). Proved for all histories with the Python implementation, and with the GPI for all histories without such a cancellation.
* **C130.** False of the code for keywords with a comma, such as the name of a test with parameters 1,2: they are joined with commas and split again (C130_received_counterexample). Proved: the splitting for all texts, the arguments for all arguments, node id and keywords without commas and without blanks around them; empty keywords are dropped.
* **C131.** False of the code for Xcelium, which is given every define as a string literal although defines are documented not to be converted (C131_build_counterexample, C131_xcelium), and for GHDL and NVC, which silently drop defines (C131_accepted_counterexample). Proved for all other runners, for arguments that do not themselves look like defines or paths that look like options; parameters for all runners that take them at build time.
* **C132.** Plus-arguments are proved for all runners. False of the code: parameters of test are ignored by Icarus Verilog, Verilator, Xcelium, VCS, DSim and Questa's two-step flow (C132_parameters_counterexample), elaboration arguments by all but NVC (C132_elab_counterexample), SIM_CMD_PREFIX and SIM_CMD_SUFFIX by DSim (C132_prefix_counterexample), and Questa runs only the first of several commands before the simulation (C132_pre_counterexample). Proved for the other cases.
* **C133.** The command line of the Verilator program is proved completely. The attached file is not the one written if Icarus Verilog's test directory is not the build directory (C133_attached_counterexample) or a Verilator design was built for FST files (C133_fst_counterexample); proved for GHDL, NVC, and the other cases of Icarus Verilog and Verilator.
* **C134.** False of the code: options without a value ignore the configuration file and the environment (C134_precedence_counterexample, described by C134_flags), a malformed environment variable is refused even if the command line gives a value (C134_precedence_environment_counterexample, C134_starts_counterexample), values of the configuration file are not checked against the choices (C134_choices_counterexample), and values like 0 are not exported, so that --cocotb-attach 0 does not replace COCOTB_ATTACH (C134_exported_counterexample). Proved for options with a value, and for values that are exported.
* **C135.** False of the code for arguments that are empty, or 0 as a seed, which do not replace the markers (C135_build_counterexample, C135_test_counterexample), and for tuples, which fail (C135_build_tuple_counterexample). Proved for all other arguments; the reading of NAME=VALUE and of time scales is proved completely.
* **C136.** Defaults and characters are proved completely. Two tests can share a directory: test[1] and test_1_, or a.py::b::c and a/b.py::c (C136_dirs_counterexample, C136_dirs_folder_counterexample). Proved for tests without parameters in files none of which has the name of a directory above the other, and for parameters of one test whose ids have only portable characters.
* **C137.** Build arguments are proved for all runners. The time scale of a build is ignored by DSim (C137_timescale_counterexample) and GHDL, whose documentation does not say so; proved for Icarus Verilog, Verilator, Xcelium and Questa's one-step flow, and the resolution of a test for GHDL.
* **C138.** Proved in full for Fraction. False of the code otherwise: an int of 2^53 or more in a unit not coarser than the precision is rounded silently (C138_int_counterexample), and so is a Decimal of more than 28 digits (C138_decimal_counterexample); the float closest to a whole number of steps can be refused by the default mode, for instance 1.001 ns with a precision of 1 ps (C138_float_counterexample). Proved: ints below 2^53 and Decimals up to 28 digits in all modes; floats exactly for 'round' below 2^51 steps, never a wrong number for 'error', at most one off for 'floor' and 'ceil', exact when the float itself is a whole number of steps.
* **C139.** Closest float, monotone, distinct and convertible back with 'round' below 2^51 steps are proved. False of the code: beyond 2^53 steps the value is not the simulation time even in the unit of the precision (C139_exact_counterexample), and converting a value back in the default mode 'error' can raise ValueError (C139_back_counterexample).
* **C140.** At most once, wake-ups and value changes happen, when a registration is over and the number of processes are proved in full. That each run calls the function it is made for is proved for timers and phases, and for value changes if mti_Desensitize withdraws the run a signal event has already caused; the code relies on that: without it, a value change registered after another was removed can be called although its signal did not change (C140_right_counterexample), or a freed PythonCallback is used (C140_right_freed_counterexample).
* **C141.** Times, precision and the end-to-end statement are proved in full. Delays arrive unchanged below 2^63 steps; a Timer of 2^63 steps or more can be constructed, but awaiting it raises OverflowError (C141_delay_counterexample).
* **C142.** Proved for all simulators but CVC: the simulator was run in this invocation and the number of failed tests is a multiple of 256. The full statement is false in four ways, each proved: 256 failed tests give status 0, because check_results exits with the number of failures (C142_sim_counterexample); the exit code of a Verilator simulation is ignored (C142_verilator_counterexample); with CVC the results are never checked (C142_cvc_counterexample); with make -j the old results can be taken for new ones (C142_parallel_counterexample).
* **C143.** The full statement is false: a second make regression after one in which tests failed ends with status 0, because the results file is there and up to date (C143_counterexample). Proved: the simulator was run with the verdict of C142, or the results were left as they were, not older than their prerequisites; with GHDL and NVC, and without a results file, it is always run.
* **C144.** Sources and CUSTOM_COMPILE_DEPS are proved current in every history. Changed arguments do not cause a new compilation (C144_sim_counterexample); with Questa's newer flow make regression ignores changed sources (C144_regression_counterexample).
* **C146.** The full statement is false in four ways, each proved: a test whose setup failed is not listed (C146_listed_counterexample); a test whose teardown failed is listed as passed (C146_teardown_counterexample); a test skipped in call and teardown is listed and counted twice (C146_twice_counterexample); an unexpected pass that pytest does not count as a failure is listed as failed (C146_xpass_counterexample). Proved for tests whose setup did not fail and whose teardown passed; the counts are proved without conditions.
* **C148.** False of the code in two ways: lib_name_path rejects the name of a simulator that is not in lower case, which lib_entry accepts (C148_case_counterexample); it accepts pairs for which no library exists, such as fli and icarus (C148_file_counterexample). Proved: for every interface of every simulator both functions name the installed library (C148_library); which names raise (C148_rejected).
* **C149.** False of the code in four ways: a comma in the path of the installation makes loading fail (C149_default_counterexample); all runners but Questa's ignore gpi_interfaces (C149_chosen_counterexample); an unknown interface in the first place stands for the VPI (C149_unknown_counterexample); a GPI_EXTRA of the user is overwritten (C149_user_extra_counterexample). Proved otherwise.
* **C150.** False of the code: VHDL sources given only by VHDL_SOURCES_<lib> do not get the VHDL interface loaded with a Verilog toplevel (C150_languages_counterexample). Proved otherwise, for paths without a comma (C149).
* **C151.** False of the code in one way: blanks around the path become part of it (C151_trim_counterexample). Proved otherwise, for texts without a NUL character (a variable cannot hold one).
* **C152.** False of the code in one way: if the import of pygpi.entry raises SystemExit, PyErr_Print ends the process (C152_survives_counterexample). All else is proved.
* **C153.** False of the code in several ways: PYGPI_DEBUG=false switches debugging on (C153_switch_counterexample); the native logger ignores a level in small letters that the Python logger accepts (C153_level_counterexample); COCOTB_ATTACH=1_000 waits for one second (C153_attach_counterexample); a large negative number is taken as a positive one (C153_attach_other_counterexample); an earlier ERANGE suppresses the pause (C153_attach_errno).
* **C154.** False of the code: with the variable set, Python code that is called while other Python code runs ends the process (C154_debug_counterexample). Proved for all histories in which this does not happen.
* **C155.** False of the code in three ways: cocotb.pass_test makes a test fail under pytest (C155_verdict_counterexample); a test expected to fail that raises an exception which is no failure is an expected failure under pytest (C155_verdict_counterexample_error); a matcher in expect_error crashes pytest (C155_verdict_counterexample_matcher). Proved otherwise. Stages need the external plugin pytest-order and are not modelled.
* **C156.** False of the code in three ways: a value in Param is passed on wrapped (C156_calls_counterexample); one name in a tuple gets the whole row (C156_calls_counterexample_row); without values there is a skipped test instead of none (C156_calls_counterexample_empty). Proved otherwise.
* **C157.** False of the code in two ways: below a directory called cocotb_test every asynchronous test runs in the simulator, too (C157_sim_counterexample); a plain test in a module that a runner runs is run twice (C157_once_counterexample). Proved otherwise. The marker on a module is modelled without arguments.
* **C158.** False of the code in two ways: a function as fixture that requests a coroutine gets an internal object (C158_args_counterexample); a coroutine with a wide scope that waits while another one fails is never started, and later tests that request it fail (C158_runs_counterexample). Proved otherwise.
* **C159.** False of the code in one way: if closing the connection fails after the report was sent, it is sent again (C159_sent_counterexample). All else is proved.
* **C160.** False of the code in one way: only the first coroutine of a phase is captured, so that messages of the second and later asynchronous fixtures are lost (C160_captured_counterexample; C160_first says exactly what is there). All else is proved.
* **C161.** False of the code in one way: a test that a module imports from another, or that has two names, is registered and run once for each name (C161_once_counterexample). All else is proved.
* **C162.** False of the code in two ways: the list is neither sorted by stage (C162_list_counterexample) nor filtered (C162_list_filter_counterexample). C162_list_selected says exactly how the list and the run are related; all else is proved.
* **C164.** False of the code in two ways: with one directory inside another, files are read twice (C164_once_counterexample); if the output has a name that is searched for and lies in the directories, a second run counts its test cases again (C164_again_counterexample). All else is proved.
* **C167.** False of the code in two ways: tasks that wait for one another with gather, select, wait, Combine or First have no text, repr() recurses without end (C167_total_counterexample; C167_total_partial says that this is the only way); the text of a cancelled task lacks the closing bracket (C167_closed_counterexample).
* **C168.** False of the code in two ways: if the simulator ends the simulation while a test runs, the coverage file is written before the test is cancelled and lacks what its clean-up runs (C168_all_counterexample); with profiling enabled and a simulation that ends before the simulator called cocotb once, writing the empty profile raises and nothing is written (C168_lost).
* **C169.** That the path leads to the object is proved for all histories (C169_way, C169_follow). Unique paths and independence of history are false of the code: a signal shown with the name x[0] and element 0 of an array x share a path (C169_unique_counterexample); where case is ignored the spelling of the first lookup stays in the path (C169_history_counterexample). Both are proved where names are identifiers, or where each object has one spelling. Lookups with GPIDiscovery.NATIVE are left out, see C70.
* **C170.** Regions are proved (C170_scope, C170_complete). False of the code: a generate loop with the label of the region around it is listed as the region itself (C170_loop_counterexample), and a record field that is an extended identifier with a dot is cut at that dot (C170_record_counterexample). In addition an element of an array is listed under its index and a closing parenthesis (C170_array_counterexample; Python never lists arrays). The other loops and fields, and all of an element but its name, are proved.
* **C171.** That exactly the frame of the scheduler is removed is proved for every way a resumed task can end (C171_own), and that no frame is ever lost (C171_kept). The rest is false of the code, which raises one exception object again for everyone who takes the result: a second awaiting task shows the frames of the first (C171_way_counterexample), and each result() makes the traceback longer (C171_same_counterexample). Both are proved where no result is taken twice, or until one is taken.
* **C172.** Start, end and duration of the phases and that the reports tile the session are proved in full (C172_times, C172_tiles, C172_total). Two parts are false of the code: the simulation time of a report includes one step the manager waits before each coroutine but the first of the session (C172_own_counterexample; proved with the steps counted), and sim_time_ratio in the report is clock time per simulation time where the summary has simulation time per clock time (C172_ratio_counterexample; proved that one is the inverse of the other).
* **C173.** Names and versions are proved for the three interfaces, and the arguments for VPI. Two parts are false of the code: under VHPI the strings of the arguments are not copied, so that a simulator that uses the memory again makes all arguments equal to the last (C173_vhpi_args_counterexample; the partial theorem says which argument appears where), and under FLI a failure of Tcl leaves number and array of the arguments unwritten, and they are read all the same (C173_fli_args_counterexample).
* **C174.** False of the code in four places, each with a counterexample and a proved restriction: a relative path of a file outside the base stays relative to the simulation's directory (C174_xunit_counterexample), paths are remembered across changes of the directory (C174_cache_counterexample), the pytest plugin leaves all relative paths as they are (C174_pytest_counterexample), and in texts the letters of the base are taken out wherever they are, so that with the base /work the path /home/work/a.py becomes /homea.py (C174_text_counterexample).
* **C175.** False of the code: arithmetic, use in range() and as a key of a dict raise and iteration over the stand-in never ends (C175_collect_counterexample; __getitem__ never raises IndexError, __eq__ without __hash__), and `!=` is true although all comparisons are meant to be false, because the method is misspelled __nq__ (C175_compare_counterexample). What does work is proved for expressions of any depth.
* **C176.** Choice, order and refusal are proved in full. That every simulator with a runner can be chosen is false of the code (C176_all_counterexample): dsim, questa-qisqrun and activehdl are not among the choices, auto does not find the first two and takes the third for Riviera-PRO, and hdl.simulator of questa-qisqrun is questaqis; C176_all_partial is the claim for all others.
* **C177.** False of the code: cocotb_verbose is obeyed but not registered (C177_strict_counterexample). All others are usable (C177_strict_partial).
* **C178.** False of the code in three places. The collector and the fixture read the markers differently: test_module= by name, a nearest marker without modules, several markers on one function (C178_modules_counterexample). The marker that the documented function cocotb_runner makes is read wrongly with one module and makes the test fail with TypeError with more (C178_function_counterexample). A file next to the runner hides the module the simulation imports (C178_file_counterexample; dots become os.path.pathsep instead of os.path.sep). Proved: one marker at each node with modules by position, exactly when the TypeError occurs, and when the files agree.
* **C179.** Proved in full for the plugin for pytest (C179_pytest), for handlers that write at once and for the text. False of cocotb's own filter: it sets created_sim_time again in every handler, so a message that a handler kept shows the time at which it was passed on (C179_created_counterexample). With the plugin an extra attribute named sim_time, sim_time_unit or sim_time_str is a KeyError (C179_extra_counterexample). Both are proved outside of exactly these cases or, for the first, if only the first handler has the filter.
* **C180.** False of the code in three places. With not in the expression a runner is left out as a whole if one of its tests is not wanted, because it has the names of all of them (C180_keyword_counterexample). A word that is part of the name of a directory chooses all cocotb tests (C180_directory_counterexample). With -m the runner has to have the marker as well (C180_mark_counterexample). Proved: no test runs that is not wanted (C180_keyword_sound), exactly the wanted ones without not, and exactly when with -m.
* **C181.** False of the code in four places. Values of signals with ranges 0 to n are not marked but are indexed n downto 0, so that their indexing changes without a warning (C181_logic_silent_counterexample). The middle of an array is warned about although nothing changes (C181_needed_counterexample). The slice named for an array has one element too many (C181_array_slice_counterexample). Slices of values are not marked (C181_derived_counterexample). Proved: the index named is right for arrays and signals (C181_advice, C181_logic_advice), so is the slice for signals (C181_slice_advice), arrays are never silent (C181_silent), and the statements outside these cases.
* **C182.** False of the code for classes derived from Task: the number of a task is read from Task but counted in the derived class, so that two tasks are called Task 0 (C182_distinct_counterexample). Proved: names and loggers in all histories (C182_name, C182_logger), different names if all tasks are of the class Task (C182_distinct_partial) or two tasks are of the same class (C182_class_partial), and the exact number of each task without a name (C182_default).
* **C183.** False of the code for a package with a name of one character that the simulator gives without `::`: std::string::compare gets a position behind the end, and the exception ends the simulation (C183_packages_counterexample). Proved for all other packages (C183_packages_partial), and for simulations without the VPI (C183_none).
* **C184.** False of the code for the test functions of runners, whose categories (passed cocotb runner, failed cocotb runner) pytest does not know: a failing one is not in the short summary (C184_short_counterexample), the last line is yellow although it failed (C184_colour_counterexample), and yellow although all passed (C184_colour_counterexample_green). Proved in full: tracebacks and numbers (C184_traceback, C184_numbers); the others but for runners.
* **C185.** False of the code: the fixture hdl takes over the language of the design of the session, so that a VHDL design that a test builds itself is simulated as Verilog if the session built a Verilog design (C185_own_counterexample); and if the language of the design of the session is unclear, the fixture raises ValueError even for tests that give a language (C185_given_counterexample). Proved otherwise (C185_own_partial, C185_given_partial), and for tests of the design of the session (C185_session).
* **C187.** False of the code: what a skipped asynchronous autouse fixture requests is set up all the same, so that an ordinary test fails if a plain fixture that only the skipped one requests raises in the main process (C187_unaffected_counterexample). Proved if the skipped fixtures request only what the test needs anyway (C187_unaffected_partial). No code of asynchronous fixtures runs (C187_never_run); their values (C187_values).
