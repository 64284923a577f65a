import Verif.Model.Env
/-!
# `shlex`, arguments from the environment, and what the pytest plugin passes to pytest in the simulator
-/
namespace Verif.Shlex
open Verif Env

/-- State of `shlex.read_token` in POSIX mode with `whitespace_split`: between words, in a word, in quotes, after a
backslash (in a word or in double quotes). CPython Lib/shlex.py, `read_token`. -/
inductive St where
  | blank
  | word
  | quote (q : Nat)
  | esc (inQuotes : Bool)
  deriving DecidableEq, Repr

/-- `whitespace` of `shlex`: space, tab, carriage return, line feed. -/
def isWs (c : Nat) : Bool := c == 32 || c == 9 || c == 13 || c == 10

/-- `shlex.split`, as used in cocotb_tools/_env.py:155 and as the type of options, plugin.py:223-360: the words;
`tok` and `quoted` are those of `read_token`. 92 is the backslash. -/
def go : St → Text → Bool → Text → PyM (List Text)
  | .blank, _, _, [] => .ok []
  | .word, tok, quoted, [] => .ok (if tok ≠ [] ∨ quoted then [tok] else [])
  | .quote _, _, _, [] => .error .valueError
  | .esc _, _, _, [] => .error .valueError
  | .blank, tok, quoted, c :: cs =>
    if isWs c then go .blank tok quoted cs
    else if c = 92 then go (.esc false) tok quoted cs
    else if c = 39 ∨ c = 34 then go (.quote c) tok quoted cs
    else go .word [c] quoted cs
  | .word, tok, quoted, c :: cs =>
    if isWs c then
      if tok ≠ [] ∨ quoted then
        match go .blank [] false cs with
        | .ok ws => .ok (tok :: ws)
        | .error e => .error e
      else go .blank tok quoted cs
    else if c = 39 ∨ c = 34 then go (.quote c) tok quoted cs
    else if c = 92 then go (.esc false) tok quoted cs
    else go .word (tok ++ [c]) quoted cs
  | .quote q, tok, _, c :: cs =>
    if c = q then go .word tok true cs
    else if c = 92 ∧ q = 34 then go (.esc true) tok true cs
    else go (.quote q) (tok ++ [c]) true cs
  | .esc inQuotes, tok, quoted, c :: cs =>
    if inQuotes then go (.quote 34) (tok ++ (if c ≠ 92 ∧ c ≠ 34 then [92, c] else [c])) quoted cs
    else go .word (tok ++ [c]) quoted cs

/-- `shlex.split(s)`. -/
def split (t : Text) : PyM (List Text) := go .blank [] false t

/-- The characters that need no quotes: letters, digits, `_` and `@ % + = : , . / -`, of ASCII. CPython Lib/shlex.py, `_find_unsafe`. -/
def safe (c : Nat) : Bool :=
  (48 ≤ c && c ≤ 57) || (65 ≤ c && c ≤ 90) || (97 ≤ c && c ≤ 122) || c == 95 ||
    c == 64 || c == 37 || c == 43 || c == 61 || c == 58 || c == 44 || c == 46 || c == 47 || c == 45

/-- `shlex.quote(s)`: a single quote becomes `'"'"'`. CPython Lib/shlex.py, `quote`. -/
def quote (t : Text) : Text :=
  if t = [] then [39, 39]
  else if t.all safe then t
  else 39 :: (t.flatMap fun c => if c = 39 then [39, 34, 39, 34, 39] else [c]) ++ [39]

/-- `shlex.join(args)`, and `_shlex_join`, runner.py:150-155. -/
def join (args : List Text) : Text := ((args.map quote).intersperse [32]).flatten

/-- `get_args`. cocotb_tools/_env.py:144-155. -/
def getArgs (env : Environ) (name : Text) (default : Option Text) : PyM (List Text) :=
  split (orText (getStr env name none) (default.getD []))

/-- `os.environ[name] = value`. -/
def setVar (env : Environ) (name value : Text) : Environ := fun n => if n = name then some value else env n

/-- Names of the variables. _controller.py:111-112, 182-183. -/
def PYTEST_ARGS : Text := ofStr "COCOTB_PYTEST_ARGS".toList
@[inherit_doc PYTEST_ARGS] def PYTEST_NODEID : Text := ofStr "COCOTB_PYTEST_NODEID".toList
@[inherit_doc PYTEST_ARGS] def PYTEST_KEYWORDS : Text := ofStr "COCOTB_PYTEST_KEYWORDS".toList

/-- What pytest is told, `config.invocation_params` and an item. -/
structure Session where
  args : List Text
  nodeid : Text
  keywords : List Text
  deriving DecidableEq, Repr

/-- The environment that `pytest_configure` and `pytest_runtest_setup` make for the simulator; `own` is
`--cocotb-pytest-args`. _controller.py:103-112, 181-183. The other variables are left out. -/
def handOver (env : Environ) (own : List Text) (s : Session) : Environ :=
  let env := setVar env PYTEST_ARGS (join (if own = [] then s.args else own))
  let env := setVar env PYTEST_NODEID s.nodeid
  setVar env PYTEST_KEYWORDS ((s.keywords.intersperse [44]).flatten)

/-- What `run_regression` reads in the simulator. _init.py:24-29. -/
def receive (env : Environ) : PyM Session := do
  let args ← getArgs env PYTEST_ARGS none
  let keywords ← getList env PYTEST_KEYWORDS none [44]
  return ⟨args, getStr env PYTEST_NODEID none, keywords⟩

end Verif.Shlex
