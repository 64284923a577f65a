import Verif.Py.Text
/-!
# The formatter for log messages (src/cocotb/logging.py, src/cocotb/_ansi.py)

Texts are lists of code points: ESC is 27, `[` is 91, the line feed is 10, the blank is 32.
-/
namespace Verif.Log

/-- `sep.join(ts)`. -/
def joinText (sep : Text) : List Text → Text
  | [] => []
  | [t] => t
  | t :: ts => t ++ sep ++ joinText sep ts

/-- Characters at which `str.splitlines` ends a line. -/
def isBreak (c : Nat) : Bool := [10, 11, 12, 13, 28, 29, 30, 133, 8232, 8233].contains c

/-- `splitlines` with the line read so far. -/
def splitGo (cur : Text) : Text → List Text
  | [] => if cur = [] then [] else [cur]
  | 13 :: 10 :: t => cur :: splitGo [] t
  | c :: t => if isBreak c then cur :: splitGo [] t else splitGo (cur ++ [c]) t

/-- `t.splitlines()`. -/
def splitlines (t : Text) : List Text := splitGo [] t

/-- `t[start:]`. -/
def sliceFrom (t : Text) (start : Int) : Text :=
  if start < 0 then t.drop (t.length - start.natAbs) else t.drop start.natAbs

/-- `t.ljust(n)`. -/
def padRight (t : Text) (n : Nat) : Text := t ++ List.replicate (n - t.length) 32

/-- `t.rjust(n)`. -/
def padLeft (t : Text) (n : Nat) : Text := List.replicate (n - t.length) 32 ++ t

/-- `_ljust`. logging.py:246-249. -/
def ljust (t : Text) (chars : Nat) : Text :=
  if t.length > chars then [46, 46] ++ sliceFrom t (((chars : Int) - 2) * -1) else padRight t chars

/-- `_rjust`. logging.py:252-255. -/
def rjust (t : Text) (chars : Nat) : Text :=
  if t.length > chars then [46, 46] ++ sliceFrom t (((chars : Int) - 2) * -1) else padLeft t chars

/-! ## Escape sequences -/

/-- `[@-Z\\-_]`. logging.py:309. -/
def isFe (c : Nat) : Bool := 64 ≤ c && c ≤ 90 || 92 ≤ c && c ≤ 95
/-- `[0-?]`. logging.py:312. -/
def isParam (c : Nat) : Bool := 48 ≤ c && c ≤ 63
/-- The class of intermediate bytes, blank to slash. logging.py:313. -/
def isInter (c : Nat) : Bool := 32 ≤ c && c ≤ 47
/-- `[@-~]`. logging.py:314. -/
def isFinal (c : Nat) : Bool := 64 ≤ c && c ≤ 126

/-- `_ansi_escape_pattern`: the number of characters after ESC that belong to the match, if there is one. The repeated
classes and the final one have no characters in common, so the greedy match is the only one. logging.py:305-318. -/
def escLen : Text → Option Nat
  | [] => none
  | c :: t =>
    if isFe c then some 1
    else if c = 91 then
      let t1 := t.dropWhile isParam
      match t1.dropWhile isInter with
      | f :: _ => if isFinal f then some ((t.takeWhile isParam).length + (t1.takeWhile isInter).length + 2) else none
      | [] => none
    else none

/-- `_ansi_escape_pattern.sub("", t)`, from a position on; `k` characters belong to a match. -/
def stripGo : Nat → Text → Text
  | _, [] => []
  | k + 1, _ :: t => stripGo k t
  | 0, c :: t =>
    if c = 27 then
      match escLen t with
      | some n => stripGo n t
      | none => c :: stripGo 0 t
    else c :: stripGo 0 t

/-- `_ansi_escape_pattern.sub("", t)`. -/
def stripAnsi (t : Text) : Text := stripGo 0 t

/-- `_ESCAPE + "<a><b>m"`. _ansi.py:10. -/
def sgr (a b : Nat) : Text := [27, 91, a, b, 109]

/-- `ANSI.DEFAULT`. _ansi.py:28-30. -/
def ansiDefault : Text := sgr 52 57 ++ sgr 51 57

/-- `SimLogFormatter.loglevel2colour`, with its default. logging.py:277-284, _ansi.py:32-42. -/
def levelColour (level : Nat) : Text :=
  if level = 30 then sgr 51 51
  else if level = 40 then sgr 51 49
  else if level = 50 then sgr 52 49 ++ sgr 51 48
  else []

/-! ## Formatting a record -/

/-- The parts of a log record the formatter uses. `exc` is the text of the exception, `stack` that of the stack; empty for
none. -/
structure Rec where
  level : Nat
  msg : Text
  exc : Text
  stack : Text

/-- `multiline_indent` as it is stored: a number or a function of the prefix. -/
inductive Indent where
  | fixed (n : Nat)
  | func (f : Text → Nat)

/-- `SimLogFormatter.formatExcInfo`; the texts of exception and stack are given. logging.py:364-379. -/
def excInfo (r : Rec) : Text :=
  if r.stack = [] then r.exc
  else (if r.exc.getLast? = some 10 then r.exc else r.exc ++ [10]) ++ r.stack

/-- `SimLogFormatter.format`; `pre` gives the prefix from the codes that begin and end the colour of the level.
logging.py:381-425. -/
def format (strip : Bool) (pre : Text → Text → Text) (indent : Indent) (r : Rec) : Text :=
  let start := if strip then [] else levelColour r.level
  let stop := if start = [] then [] else ansiDefault
  let p := pre start stop
  let output :=
    if strip then stripAnsi (p ++ r.msg)
    else if start ≠ [] then p ++ start ++ replaceText ansiDefault start r.msg ++ ansiDefault
    else p ++ r.msg ++ ansiDefault
  let exc := excInfo r
  let multi := exc ≠ [] ∨ 10 ∈ r.msg
  let output := if exc ≠ [] then output ++ [10] ++ exc else output
  match indent with
  | .fixed n =>
    if ¬ multi ∨ n = 0 then output else joinText (10 :: List.replicate n 32) (splitlines output)
  | .func f =>
    if ¬ multi then output else joinText (10 :: List.replicate (f (stripAnsi p)) 32) (splitlines output)

/-- What the default prefix shows: the time as text, the name of the level, the name of the logger, file, line as text and
function. -/
structure Head where
  time : Text
  levelname : Text
  name : Text
  file : Text
  line : Text
  func : Text

/-- The default prefix. logging.py:320-326. -/
def defaultPrefix (reduced : Bool) (h : Head) (start stop : Text) : Text :=
  let p := padLeft h.time 11 ++ [32] ++ start ++ padRight h.levelname 8 ++ stop ++ [32] ++ ljust h.name 34 ++ [32]
  if reduced then p
  else p ++ rjust h.file 20 ++ [58] ++ padRight h.line 4 ++ [32, 105, 110, 32] ++ ljust h.func 31 ++ [32]

/-- The record used to measure the prefix: no time (`-.--ns`), INFO, line 0 and empty names. logging.py:337-345. -/
def emptyHead : Head := ⟨[45, 46, 45, 45, 110, 115], [73, 78, 70, 79], [], [], [48], []⟩

/-- The indentation that is computed for the default prefix. logging.py:327-345. -/
def defaultIndent (reduced : Bool) : Indent := .fixed (stripAnsi (defaultPrefix reduced emptyHead [] [])).length

end Verif.Log
