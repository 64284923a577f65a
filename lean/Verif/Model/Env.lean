import Verif.Py.Str
import Verif.Py.Dict
/-!
# Environment variables, plusargs and start-up (cocotb_tools/_env.py, cocotb/_init.py, cocotb/preview.py,
pygpi/entry.py)

`os.environ` is a partial function. Log messages and warnings are left out.
-/
namespace Verif.Env
open Verif

/-- `os.environ`. -/
abbrev Environ := Text → Option Text

/-- The words read as true. cocotb_tools/_env.py:14. -/
def trueWords : List Text :=
  ["1", "yes", "y", "on", "true", "enable"].map fun s => ofStr s.toList

/-- The words read as false. cocotb_tools/_env.py:17. -/
def falseWords : List Text :=
  ["0", "no", "n", "off", "false", "disable"].map fun s => ofStr s.toList

/-- Python's `a or b` on strings. -/
def orText (a b : Text) : Text := if a = [] then b else a

/-- `get_str`. cocotb_tools/_env.py:33-43. -/
def getStr (env : Environ) (name : Text) (default : Option Text) : Text :=
  orText (stripText ((env name).getD [])) (default.getD [])

/-- `as_bool`. cocotb_tools/_env.py:76-93. -/
def asBool (U : Unicode) (value : Text) : PyM Bool :=
  if lowerText U value ∈ trueWords then .ok true
  else if lowerText U value ∈ falseWords then .ok false
  else .error .valueError

/-- `get_bool`. cocotb_tools/_env.py:46-73. -/
def getBool (U : Unicode) (env : Environ) (name : Text) (default : Option Bool) : PyM Bool :=
  let value := getStr env name none
  if value = [] then .ok (default.getD false) else asBool U value

/-- `get_list`. cocotb_tools/_env.py:96-117. -/
def getList (env : Environ) (name : Text) (default : Option (List Text)) (separator : Text) : PyM (List Text) := do
  let parts ← splitText separator (getStr env name none)
  let items := (parts.map stripText).filter (fun x => decide (x ≠ []))
  return (if items = [] then default.getD [] else items)

/-- `get_int`. cocotb_tools/_env.py:120-130. -/
def getInt (U : Unicode) (env : Environ) (name : Text) (default : Option Int) : PyM Int :=
  if getStr env name none = [] then .ok (default.getD 0) else intOf U (getStr env name none)

/-! ### Plusargs and the random seed -/

/-- A value in `cocotb.plusargs`: a string, or True. -/
inductive PlusVal where
  | str (v : Text)
  | true_
  deriving DecidableEq

/-- The body of the loop of `_process_plusargs`. cocotb/_init.py:70-76. 43 is `+`, 61 is `=`. -/
def plusStep (d : List (Text × PlusVal)) (option : Text) : List (Text × PlusVal) :=
  match option with
  | [] => d
  | c :: rest =>
    if c = 43 then
      if 61 ∈ option then dictSet d (splitOnce 61 rest).1 (.str (splitOnce 61 rest).2)
      else dictSet d rest .true_
    else d

/-- `_process_plusargs`. cocotb/_init.py:67-76. -/
def plusargs (argv : List Text) : List (Text × PlusVal) := argv.foldl plusStep []

/-- `str(v)` of a plusarg. -/
def PlusVal.text : PlusVal → Text
  | .str v => v
  | .true_ => ofStr "True".toList

/-- The names looked at by `_setup_random_seed`. -/
def COCOTB_RANDOM_SEED : Text := ofStr "COCOTB_RANDOM_SEED".toList
/-- See above. -/
def RANDOM_SEED : Text := ofStr "RANDOM_SEED".toList
/-- See above. -/
def ntbSeed : Text := ofStr "ntb_random_seed".toList
/-- See above. -/
def plusSeed : Text := ofStr "seed".toList

/-- `_setup_random_seed`: the value of `cocotb.RANDOM_SEED`; `now` is `int(time.time())`. cocotb/_init.py:169-203. -/
def randomSeed (U : Unicode) (env : Environ) (pa : List (Text × PlusVal)) (now : Int) : PyM Int :=
  if (env COCOTB_RANDOM_SEED).isSome then getInt U env COCOTB_RANDOM_SEED (some now)
  else if (env RANDOM_SEED).isSome then getInt U env RANDOM_SEED (some now)
  else match dictGet pa ntbSeed with
    | some v => intOf U v.text
    | none =>
      match dictGet pa plusSeed with
      | some v => intOf U v.text
      | none => .ok now

/-! ### The top-level object -/

/-- The simulator: its top-level objects with their names, and `get_root_handle`, which may find nothing. The name an
object has as a handle (`_name`) is the simulator's name for it. -/
structure Roots where
  /-- `root_iterate()`. -/
  listed : List (Nat × Text)
  /-- `get_root_handle(name)` and the name of the object found. -/
  find : Option Text → Option (Nat × Text)

/-- The name asked for. cocotb/_init.py:207-214. 46 is the dot. -/
def rootName (toplevel : Option Text) : Option Text :=
  match toplevel with
  | none => none
  | some t =>
    let n := stripText t
    if n = [] then none
    else if 46 ∈ n then some (splitOnce 46 n).2
    else some n

/-- The loop that fills `cocotb.tops`. cocotb/_init.py:218-223. -/
def listTops (fold : Text → Text) (R : Roots) : List (Text × Nat) :=
  R.listed.foldl (fun d h => dictSet d (fold h.2) h.1) []

/-- `_setup_root_handle`: `cocotb.top` and `cocotb.tops`. `fold` is `str.casefold`. cocotb/_init.py:206-240. -/
def rootHandle (fold : Text → Text) (R : Roots) (toplevel : Option Text) : PyM (Nat × List (Text × Nat)) :=
  let name := rootName toplevel
  let tops := listTops fold R
  match name.bind fun n => dictGet tops (fold n) with
  | some h => .ok (h, tops)
  | none =>
    match R.find name with
    | none => .error .runtimeError
    | some (h, hn) =>
      match name with
      | some n => .ok (h, dictSet tops (fold n) h)
      | none => .ok (h, dictSet tops (fold hn) h)

/-! ### Preview features -/

/-- `_parse_features`, consumed by `list`. cocotb/preview.py:66-74. -/
def parseFeatures (known : List Text) : List Text → PyM (List Text)
  | [] => .ok []
  | v :: vs =>
    let f := stripText v
    if f = [] then parseFeatures known vs
    else if f ∉ known then .error .valueError
    else do
      let fs ← parseFeatures known vs
      return f :: fs

/-- `preview._init`: the features enabled, starting from none. `known` are the values of the enumeration.
cocotb/preview.py:77-94. -/
def previewInit (U : Unicode) (known : List Text) (features : Option Text) : PyM (List Text) :=
  match features with
  | none => .ok []
  | some [] => .ok []
  | some t =>
    match asBool U t with
    | .ok true => .ok known
    | .ok false => .ok []
    | .error _ => do
      let parts ← splitText [44] t
      parseFeatures known parts

/-! ### Entry points -/

/-- `a, b = s.split(":")`. 58 is the colon. -/
def twoParts (s : Text) : Option (Text × Text) :=
  match splitGo [58] 0 s with
  | [a, b] => some (a, b)
  | _ => none

/-- The parsing loop of `load_entry`: any failure is a RuntimeError. pygpi/entry.py:23-33. -/
def parseEntries : List Text → PyM (List (Text × Text))
  | [] => .ok []
  | s :: ss =>
    match twoParts s with
    | none => .error .runtimeError
    | some e => do
      let es ← parseEntries ss
      return e :: es

/-- The running loop of `load_entry`: the entry points called, and whether all returned. Importing the module and
looking up the function count as part of the call. pygpi/entry.py:35-42. -/
def runEntries (fails : Text × Text → Bool) : List (Text × Text) → List (Text × Text) × Bool
  | [] => ([], true)
  | e :: es => if fails e then ([e], false) else (e :: (runEntries fails es).1, (runEntries fails es).2)

/-- The entry points used when none are given. pygpi/entry.py:13-21. -/
def defaultEntries : List Text :=
  ["cocotb_tools._coverage:start_cocotb_library_coverage", "cocotb.logging:_configure",
    "cocotb._init:init_package_from_simulation", "cocotb.regression:_run_regression"].map fun s => ofStr s.toList

/-- The name of the variable. -/
def PYGPI_USERS : Text := ofStr "PYGPI_USERS".toList

/-- `load_entry`: the calls made, and whether it returned. pygpi/entry.py:10-42. -/
def loadEntry (env : Environ) (fails : Text × Text → Bool) : List (Text × Text) × Bool :=
  match (do let l ← getList env PYGPI_USERS (some defaultEntries) [44]; parseEntries l) with
  | .ok es => runEntries fails es
  | .error _ => ([], false)

end Verif.Env
