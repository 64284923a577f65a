import Verif.Model.XUnit
/-!
# What result files are supposed to say
-/
namespace Verif.XUnit

/-- `Char` of XML 1.0, section 2.2. -/
def XmlChar (c : Nat) : Prop :=
  c = 0x9 ∨ c = 0xA ∨ c = 0xD ∨ (0x20 ≤ c ∧ c ≤ 0xD7FF) ∨ (0xE000 ≤ c ∧ c ≤ 0xFFFD) ∨
    (0x10000 ≤ c ∧ c ≤ 0x10FFFF)

/-- A text that XML 1.0 can contain. -/
def Legal (t : Text) : Prop := ∀ c ∈ t, XmlChar c

/-- The value of a hexadecimal digit `0`-`9`, `A`-`F`. -/
def hexDigit (c : Nat) : Option Nat :=
  if 48 ≤ c ∧ c ≤ 57 then some (c - 48) else if 65 ≤ c ∧ c ≤ 70 then some (c - 55) else none

/-- The number a text of hexadecimal digits stands for. -/
def hexValue : Text → Nat → Option Nat
  | [], acc => some acc
  | c :: t, acc => match hexDigit c with
    | some d => hexValue t (16 * acc + d)
    | none => none

/-- `#x` and the code point of the character, in at least two digits, or four beyond U+00FF. -/
def Visible (c : Nat) (t : Text) : Prop :=
  ∃ h, t = ofStr "#x".toList ++ h ∧ hexValue h 0 = some c ∧ (if c ≤ 0xFF then h.length = 2 else 4 ≤ h.length)

/-- All texts in a document: attribute values and contents. -/
def texts (doc : Elem) : List Text :=
  doc.all.flatMap fun e => e.attrs.map (·.2) ++ e.text.toList

/-- The different members of a list in the order of their first appearance. -/
def firsts {α : Type} [DecidableEq α] (l : List α) : List α :=
  l.foldl (fun r x => if x ∈ r then r else r ++ [x]) []

/-- The verdict a `testcase` element shows. -/
def verdict (e : Elem) : Option Status :=
  if e.has "failure" then some .failed else if e.has "error" then some .error
  else if e.has "skipped" then some .skipped else none

/-- The verdict a test case should show: a test that failed as expected counts as passed. -/
def expected : Status → Option Status
  | .failed => some .failed
  | .error => some .error
  | .skipped => some .skipped
  | _ => none

/-- The name of the suite a test case belongs to: its module, or `cocotb` if it has none. -/
def suiteOf (c : Case) : Text := if c.classname = [] then ofStr "cocotb".toList else c.classname

/-- The test cases added before each `write`. -/
def added : List Case → List Ev → List (List Case)
  | _, [] => []
  | cs, .add c :: evs => added (cs ++ [c]) evs
  | cs, .write :: evs => cs :: added cs evs

/-- A result file as cocotb and pytest write it: a root with test suites, none of which contains another. -/
def Flat (doc : Elem) : Prop :=
  doc.tag ≠ "testsuite" ∧
  ∀ s ∈ doc.children, s.tag = "testsuite" ∧ ∀ c ∈ Elem.allOf s.children, c.tag ≠ "testsuite"

/-- The number an attribute stands for. -/
def Number (e : Elem) (attr : String) (n : Nat) : Prop := e.get attr = some (decText n)

end Verif.XUnit
