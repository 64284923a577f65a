import Verif.Py.Text
import Verif.Py.Dict
/-!
# Result files: writing, counting, combining

src/cocotb/_xunit_reporter.py, src/cocotb_tools/check_results.py and combine_results.py. XML elements are
trees; reading a file that was written gives the same tree (the serialiser and parser of the standard library
are not modelled). Times are exact; how they are printed, the date, the host name, `str` of values and the
formatted traceback are parameters.
-/
namespace Verif.XUnit

/-- `_INVALID_CHARS`, _xunit_reporter.py:41-43: the items of the character class. The literal is no raw string, and
a backslash-u takes four digits, so its end stands for U+1000, the range from the digit `0` to U+10FF, and twice the
letter `f`; not for the range from U+10000 to U+10FFFF. -/
def classItems : List (Nat × Nat) :=
  [(0x9, 0x9), (0xa, 0xa), (0xd, 0xd), (0x20, 0x7e), (0x80, 0xd7ff), (0xe000, 0xfffd),
   (0x1000, 0x1000), (0x30, 0x10ff), (0x66, 0x66), (0x66, 0x66)]

/-- The negated class does not match: the character is left alone. -/
def keeps (c : Nat) : Bool := classItems.any fun r => decide (r.1 ≤ c) && decide (c ≤ r.2)

/-- `_escape_code`, _xunit_reporter.py:309-316. -/
def escapeCode (c : Nat) : Text :=
  if c ≤ 0xFF then ofStr "#x".toList ++ hexText 2 c else ofStr "#x".toList ++ hexText 4 c

/-- `_escape`, _xunit_reporter.py:321-333, of a string. -/
def escape (t : Text) : Text := t.flatMap fun c => if keeps c then [c] else escapeCode c

/-- `_ensure_newline`, _xunit_reporter.py:304-306. -/
def ensureNewline (t : Text) : Text := if t ≠ [] ∧ t.getLast? ≠ some 10 then t ++ [10] else t

/-- `xml.etree.ElementTree.Element`. -/
inductive Elem where
  | mk (tag : String) (attrs : List (String × Text)) (text : Option Text) (children : List Elem)

namespace Elem

def tag : Elem → String | mk t _ _ _ => t
def attrs : Elem → List (String × Text) | mk _ a _ _ => a
def text : Elem → Option Text | mk _ _ x _ => x
def children : Elem → List Elem | mk _ _ _ c => c

/-- `e.get(name)`. -/
def get (e : Elem) (n : String) : Option Text := dictGet e.attrs n

/-- `e.set(name, value)`. -/
def set (e : Elem) (n : String) (v : Text) : Elem := mk e.tag (dictSet e.attrs n v) e.text e.children

/-- `e.extend(l)`. -/
def extend (e : Elem) (l : List Elem) : Elem := mk e.tag e.attrs e.text (e.children ++ l)

/-- `e.findall(tag)`: the children with the tag. -/
def findall (e : Elem) (t : String) : List Elem := e.children.filter fun c => c.tag = t

/-- `e.find(tag) is not None`. -/
def has (e : Elem) (t : String) : Bool := e.children.any fun c => c.tag = t

mutual
/-- The element and all its descendants in document order. -/
def all : Elem → List Elem
  | mk t a x cs => mk t a x cs :: allOf cs
/-- The same for a list of elements. -/
def allOf : List Elem → List Elem
  | [] => []
  | c :: cs => all c ++ allOf cs
end

/-- `list(e.iter(tag))`. -/
def iter (e : Elem) (t : String) : List Elem := e.all.filter fun c => c.tag = t

end Elem

/-- A result of a test, _xunit_reporter.py:29. -/
inductive Status where
  | passed | failed | skipped | error | xfailed
  deriving DecidableEq, Repr

/-- `reason`: nothing, a string, or an exception with the name of its type, `str` of it and its formatted
traceback. -/
inductive Reason where
  | nothing
  | msg (t : Text)
  | exc (type msg traceback : Text)
  deriving DecidableEq, Repr

/-- The arguments of `add_testcase`. -/
structure Case where
  name : Text
  classname : Text
  status : Status
  time : Rat
  out : Text
  err : Text
  reason : Reason
  props : List (Text × Text)

/-- What the reporter was made with, and the parameters: how times are printed, the date when the `n`-th suite is
made, and the host. `relativeTo` is the path with a separator at the end, if given. -/
structure Conf where
  fmtTime : Rat → Text
  date : Nat → Text
  host : Text
  relativeTo : Option Text
  attachments : List Text

/-- `TestSuite`, _xunit_reporter.py:49-60. -/
structure Suite where
  element : Elem
  errors : Nat
  failures : Nat
  skipped : Nat
  tests : Nat
  time : Rat

/-- The reporter: the dictionary `_testsuites`. The children of the root element are the elements of the suites in
the order of the dictionary, because a suite's element is added to the root when it enters the dictionary. -/
abbrev Reporter := List (Text × Suite)

/-- Absolute paths made relative, _xunit_reporter.py:296-297. -/
def relativePaths (K : Conf) (t : Text) : Text :=
  match K.relativeTo with
  | some p => replaceText p [] t
  | none => t

/-- POSIX newlines, _xunit_reporter.py:299-300. -/
def posixNewlines (t : Text) : Text :=
  if 13 ∈ t then replaceText [13] [10] (replaceText [13, 10] [10] t) else t

/-- `_normalize_text`, _xunit_reporter.py:286-302. -/
def normalizeText (K : Conf) (t : Text) : Text := escape (ensureNewline (posixNewlines (relativePaths K t)))

/-- `_add_simple`, _xunit_reporter.py:253-284: the element added. -/
def simple (K : Conf) (name : String) (reason : Reason) : Elem :=
  match reason with
  | .exc ty m tb =>
    .mk name [("message", escape m), ("type", escape ty)]
      (if normalizeText K tb ≠ [] then some (normalizeText K tb) else none) []
  | .msg t => if t ≠ [] then .mk name [("message", escape t)] none [] else .mk name [] none []
  | .nothing => .mk name [] none []

/-- `_get_testsuite`, _xunit_reporter.py:203-233: the suite, made if it is missing. -/
def newSuite (K : Conf) (n : Nat) (name : Text) : Suite :=
  ⟨.mk "testsuite" [("name", escape name), ("errors", ofStr ['0']), ("failures", ofStr ['0']),
      ("skipped", ofStr ['0']), ("tests", ofStr ['0']), ("time", ofStr ['0']),
      ("timestamp", escape (K.date n)), ("hostname", escape K.host)] none [], 0, 0, 0, 0, 0⟩

/-- `_get_testsuite`. -/
def getSuite (K : Conf) (name : Text) (r : Reporter) : Suite :=
  match dictGet r name with
  | some s => s
  | none => newSuite K r.length name

/-- The elements for the status, _xunit_reporter.py:152-166. -/
def statusElems (K : Conf) (c : Case) : List Elem :=
  match c.status with
  | .skipped => [simple K "skipped" c.reason]
  | .error => [simple K "error" c.reason]
  | .failed => [simple K "failure" c.reason]
  | _ => []

/-- The properties, _xunit_reporter.py:168-178; a skipped test has no attachments. -/
def properties (K : Conf) (c : Case) : Elem :=
  .mk "properties" [] none
    (c.props.map (fun x => .mk "property" [("name", x.1), ("value", x.2)] none []) ++
     (if c.status = .skipped then [] else
       K.attachments.map fun a => .mk "property" [("name", ofStr "attachment".toList), ("value", a)] none []))

/-- `_text_attachments`, _xunit_reporter.py:107-110. -/
def textAttachments (K : Conf) : Text :=
  (List.intersperse [10] (K.attachments.map fun a =>
    ofStr "[[ATTACHMENT|".toList ++ a ++ ofStr "]]".toList)).flatten

/-- `system_out` with the attachments, _xunit_reporter.py:180-181. -/
def systemOut (K : Conf) (c : Case) : Text :=
  if c.status ≠ .skipped ∧ textAttachments K ≠ [] then ensureNewline c.out ++ textAttachments K else c.out

/-- The `testcase` element, _xunit_reporter.py:140-187. -/
def caseElem (K : Conf) (c : Case) : Elem :=
  .mk "testcase" [("classname", escape c.classname), ("name", escape c.name), ("time", K.fmtTime c.time)] none
    (statusElems K c ++ [properties K c] ++
     (if systemOut K c ≠ [] then [.mk "system-out" [] (some (normalizeText K (systemOut K c))) []] else []) ++
     (if c.err ≠ [] then [.mk "system-err" [] (some (normalizeText K c.err)) []] else []))

/-- The suite after a test case was added. -/
def addToSuite (K : Conf) (c : Case) (s : Suite) : Suite :=
  { element := s.element.extend [caseElem K c]
    errors := if c.status = .error then s.errors + 1 else s.errors
    failures := if c.status = .failed then s.failures + 1 else s.failures
    skipped := if c.status = .skipped then s.skipped + 1 else s.skipped
    tests := s.tests + 1
    time := s.time + c.time }

/-- `classname or "cocotb"`, _xunit_reporter.py:135. -/
def suiteName (c : Case) : Text := if c.classname ≠ [] then c.classname else ofStr "cocotb".toList

/-- `add_testcase`, _xunit_reporter.py:112-187. -/
def addTestcase (K : Conf) (c : Case) (r : Reporter) : Reporter :=
  dictSet r (suiteName c) (addToSuite K c (getSuite K (suiteName c) r))

/-- `TestSuite.update`, _xunit_reporter.py:62-68. -/
def update (K : Conf) (s : Suite) : Suite :=
  { s with element :=
      ((((s.element.set "errors" (decText s.errors)).set "failures" (decText s.failures)).set "skipped"
        (decText s.skipped)).set "tests" (decText s.tests)).set "time" (K.fmtTime s.time) }

/-- The document. -/
def root (name : Text) (r : Reporter) : Elem :=
  .mk "testsuites" [("name", name)] none (r.map fun x => x.2.element)

/-- `write`, _xunit_reporter.py:189-205: the new state and the document written. -/
def write (K : Conf) (name : Text) (r : Reporter) : Reporter × Elem :=
  let r' := r.map fun x => (x.1, update K x.2)
  (r', root name r')

/-- What is done with a reporter. -/
inductive Ev where
  | add (c : Case)
  | write

/-- The documents written by a sequence of calls. -/
def documents (K : Conf) (name : Text) : Reporter → List Ev → List Elem
  | _, [] => []
  | r, .add c :: evs => documents K name (addTestcase K c r) evs
  | r, .write :: evs => (write K name r).2 :: documents K name (write K name r).1 evs

/-- `int(testsuite.get(name, 0))`. -/
def intAttr (e : Elem) (n : String) : PyM Nat :=
  match e.get n with
  | some t => intText t
  | none => .ok 0

/-- The loop of `get_results`, check_results.py:34-37. -/
def resultsLoop : List Elem → Nat → Nat → PyM (Nat × Nat)
  | [], tests, failed => .ok (tests, failed)
  | e :: es, tests, failed => match intAttr e "tests" with
    | .error x => .error x
    | .ok t => match intAttr e "failures" with
      | .error x => .error x
      | .ok f => match intAttr e "errors" with
        | .error x => .error x
        | .ok r => resultsLoop es (tests + t) (failed + f + r)

/-- `get_results`, check_results.py:14-39, on the document in the file. -/
def getResults (doc : Elem) : PyM (Nat × Nat) := resultsLoop (doc.findall "testsuite") 0 0

/-- The loop over `result` with its `else`, combine_results.py:98-115: the suite is merged into the first one of
the same name, or added. -/
def merge (ts : Elem) : List Elem → List Elem
  | [] => [ts]
  | e :: es => if e.get "name" = ts.get "name" then e.extend ts.children :: es else e :: merge ts es

/-- The children of `result` after reading the documents in order, combine_results.py:88-115. (Elements are
values here; in Python a suite nested in another suite would be shared.) -/
def mergeAll (docs : List Elem) : List Elem :=
  docs.foldl (fun res doc => (doc.iter "testsuite").foldl (fun res ts => merge ts res) res) []

/-- A test case counts as failed, combine_results.py:128. -/
def failing (e : Elem) : Bool := e.has "failure" || e.has "error"

/-- `combine_results.main`, combine_results.py:82-155: the document written and the exit code. -/
def combine (name : Text) (docs : List Elem) : Elem × Nat :=
  let result := Elem.mk "testsuites" [("name", name)] none (mergeAll docs)
  (result, if (result.findall "testsuite").any fun ts => (ts.iter "testcase").any failing then 1 else 0)

end Verif.XUnit
