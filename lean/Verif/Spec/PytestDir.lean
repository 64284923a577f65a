import Verif.Spec.PytestHdl
/-!
# The default test module, top level and directory of the fixture `hdl`
-/
namespace Verif.Spec
open Verif PytestHdl
open Verif.Runner (lit)

/-- The test modules named by a marker. -/
def Marker.runnerOf : Marker → Option (List Text)
  | .runner ([] :: ms) => some ms
  | .runner ms => some ms
  | _ => none

/-- A file name up to its first dot. -/
inductive Stem : (name stem : Text) → Prop
  | dot (s e) : 46 ∉ s → Stem (s ++ 46 :: e) s
  | whole (s) : 46 ∉ s → Stem s s

/-- The name of the design tested by a module: `test_x` and `x_test` test `x`. -/
inductive Tests : (module design : Text) → Prop
  | before (x) : Tests (lit "test_" ++ x) x
  | after (x) : (∀ y, x ++ lit "_test" ≠ lit "test_" ++ y) → Tests (x ++ lit "_test") x
  | same (x) : (∀ y, x ≠ lit "test_" ++ y) → (∀ y, x ≠ y ++ lit "_test") → Tests x x

/-- The test modules of a request: those of the last marker, else the file. -/
inductive ModulesOf (r : Request) : List Text → Prop
  | marker (m ms) : latest Marker.runnerOf (r.parents.reverse.flatten) = some (m :: ms) → ModulesOf r (m :: ms)
  | file (s) : (∀ m ms, latest Marker.runnerOf (r.parents.reverse.flatten) ≠ some (m :: ms)) → r.session = false →
      Stem r.fileName s → ModulesOf r [s]
  | session : (∀ m ms, latest Marker.runnerOf (r.parents.reverse.flatten) ≠ some (m :: ms)) → r.session = true → ModulesOf r []

/-- The top level for test modules: that of the first. -/
inductive TopOf : List Text → Text → Prop
  | first (m ms t) : Tests m t → TopOf (m :: ms) t
  | none : TopOf [] []

/-- The language of the top level by the option, for a simulator with the languages `langs`: the only one if the option is `auto`. -/
inductive LanguageOf (option : Text) (langs : List Text) : Option Text → Prop
  | chosen : option ≠ [] → option ≠ lit "auto" → LanguageOf option langs (some option)
  | only (l) : option = [] ∨ option = lit "auto" → langs = [l] → LanguageOf option langs (some l)
  | open : option = [] ∨ option = lit "auto" → langs.length ≠ 1 → LanguageOf option langs none

/-- A test: the path of its file without `.py`, its classes and its function, and the id of its parameters. -/
structure TestId where
  path : Text
  parts : List Text
  params : Option Text

/-- The node id: `path.py::Class::function[params]`. -/
def TestId.text (i : TestId) : Text :=
  i.path ++ lit ".py" ++ i.parts.flatMap (lit "::" ++ ·) ++ (match i.params with | some p => lit "[" ++ p ++ lit "]" | none => [])

/-- Letters, digits and the underscore. -/
def nameChar (c : Nat) : Bool := (65 ≤ c && c ≤ 90) || (97 ≤ c && c ≤ 122) || (48 ≤ c && c ≤ 57) || c == 95

/-- Letters, digits, the underscore, the point, the minus sign and the slash. -/
def pathChar (c : Nat) : Bool := nameChar c || c == 46 || c == 45 || c == 47

/-- Paths and names of plain characters. -/
structure TestId.Plain (i : TestId) : Prop where
  path : ∀ c ∈ i.path, pathChar c = true
  some : i.parts ≠ []
  parts : ∀ p ∈ i.parts, p ≠ [] ∧ ∀ c ∈ p, nameChar c = true

/-- Two files where neither lies in a directory with the name of the other. -/
def Apart (p q : Text) : Prop := p = q ∨ (¬ (p ++ [47]) <+: q ∧ ¬ (q ++ [47]) <+: p)

end Verif.Spec
