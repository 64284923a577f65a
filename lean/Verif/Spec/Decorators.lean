import Verif.Model.Decorators
/-!
# What the decorators promise
-/
namespace Verif.DecoSpec
open Verif Deco

/-- The value a test receives: `Param` only carries it. -/
def carried : Obj → Obj
  | .param v _ => v
  | v => v

/-- The names of an option. -/
def names : Opt → List PyStr
  | .one n _ => [n]
  | .many ns _ => ns

/-- How many values (or rows of values) an option has. -/
def size : Opt → Nat
  | .one _ vs => vs.length
  | .many _ rows => rows.length

/-- The arguments the `i`-th value of an option stands for. -/
def args : Opt → Nat → List (PyStr × Obj)
  | .one n vs, i => match vs[i]? with
    | some v => [(n, carried v)]
    | none => []
  | .many ns rows, i => match rows[i]? with
    | some row => ns.zip (row.map carried)
    | none => []

/-- The arguments a choice of one value per option stands for. -/
def combination : List Opt → List Nat → List (PyStr × Obj)
  | o :: os, i :: is => args o i ++ combination os is
  | _, _ => []

/-- Every row has one value per name. -/
def Rectangular : Opt → Prop
  | .one _ _ => True
  | .many ns rows => ∀ row ∈ rows, row.length = ns.length

/-- No name is used twice. -/
def DistinctNames (os : List Opt) : Prop := (os.flatMap names).Nodup

/-- The text a value is shown as in a test name; some values have none. -/
inductive Shows (ident : PyStr → Bool) : Obj → PyStr → Prop
  | enum (id : Nat) (name : PyStr) : Shows ident (.enum id name) name
  | str (s : PyStr) : s.length ≤ 10 → ident s = true → Shows ident (.str s) s
  | prim (r : PyStr) : Shows ident (.prim r) r
  | named (id : Nat) (q : PyStr) : Shows ident (.named id q) q
  | param (v : Obj) (n : PyStr) : Shows ident (.param v (some n)) n
  | bare (v : Obj) (t : PyStr) : Shows ident v t → Shows ident (.param v none) t

/-- The label of the `i`-th of the values: its text, or `i` if one of them has no text. -/
def Label (ident : PyStr → Bool) (vs : List Obj) (i : Nat) (t : PyStr) : Prop :=
  ((∀ v ∈ vs, ∃ s, Shows ident v s) ∧ ∃ v, vs[i]? = some v ∧ Shows ident v t) ∨
  ((∃ v ∈ vs, ∀ s, ¬ Shows ident v s) ∧ i < vs.length ∧ t = decStr i)

/-- The labels of the `i`-th value (or row of values) of an option, one per name. -/
def Labels (ident : PyStr → Bool) : Opt → Nat → List PyStr → Prop
  | .one _ vs, i, ts => ∃ t, ts = [t] ∧ Label ident vs i t
  | .many ns rows, i, ts => ts.length = ns.length ∧
      ∀ (j : Nat) t, ts[j]? = some t → Label ident (rows.filterMap (·[j]?)) i t

/-- `/name=label` for each name. -/
def pieces : List PyStr → List PyStr → PyStr
  | n :: ns, t :: ts => '/' :: n ++ '=' :: t ++ pieces ns ts
  | _, _ => []

/-- The name of the test for a choice. -/
inductive Named (ident : PyStr → Bool) : List Opt → List Nat → PyStr → Prop
  | nil : Named ident [] [] []
  | cons (o : Opt) (os : List Opt) (i : Nat) (is : List Nat) (ts : List PyStr) (s : PyStr) :
      Labels ident o i ts → Named ident os is s → Named ident (o :: os) (i :: is) (pieces (names o) ts ++ s)

/-- Different values of an option have different labels. -/
def DistinctLabels (ident : PyStr → Bool) (o : Opt) : Prop :=
  ∀ i j ts, Labels ident o i ts → Labels ident o j ts → i < size o → j < size o → i = j

/-- No label contains a slash. -/
def NoSlash (ident : PyStr → Bool) (o : Opt) : Prop := ∀ i ts, Labels ident o i ts → ∀ t ∈ ts, '/' ∉ t

end Verif.DecoSpec

/-! ### Decorators -/

namespace Verif.DecoSpec
open Verif Deco

/-- The decorator asks to skip the test. -/
def asksSkip : Dec → Prop
  | .test _ _ _ skip _ _ => skip = some true
  | .skipif c => c = true
  | _ => False

/-- The decorator says that the test is expected to fail. -/
def asksFail : Dec → Prop
  | .test _ expectFail _ _ _ _ => expectFail = some true
  | .xfail c raises => c = true ∧ raises = none
  | _ => False

/-- The decorator says that the test is expected to raise `e`. -/
def asksError (e : Nat) : Dec → Prop
  | .test _ _ expectError _ _ _ => ∃ es, expectError = some es ∧ e ∈ es
  | .xfail c raises => c = true ∧ ∃ es, raises = some es ∧ e ∈ es
  | _ => False

/-- The timeout, stage and name the decorator gives, if any. -/
def timeoutOf : Dec → Option Nat
  | .test timeout _ _ _ _ _ => timeout
  | _ => none

def stageOf : Dec → Option Int
  | .test _ _ _ _ stage _ => stage
  | _ => none

def nameOf : Dec → Option PyStr
  | .test _ _ _ _ _ name => name
  | _ => none

/-- The options the decorator gives. -/
def optionsOf : Dec → List Opt
  | .parametrize byTuple byName => byTuple ++ byName.map fun x => .one x.1 x.2
  | _ => []

/-- The options given as tuples are well-formed. -/
def Accepted (ident : PyStr → Bool) : Dec → Prop
  | .parametrize byTuple _ => ∀ o ∈ byTuple, (∀ n ∈ names o, ident n = true) ∧ Rectangular o
  | _ => True

/-! ### TestFactory -/

/-- The names of an option of a factory. -/
def keyNames : Key → List PyStr
  | .one n => [n]
  | .many ns => ns

/-- The values of an option fit its names. -/
def FitsKey : Key → FVal → Prop
  | .one _, _ => True
  | .many ns, .many vs => vs.length = ns.length
  | .many _, .one _ => False

/-- The arguments a value stands for. -/
def fargs : Key → FVal → List (PyStr × FVal)
  | .one n, v => [(n, v)]
  | .many ns, .many vs => ns.zip (vs.map .one)
  | .many _, .one _ => []

/-- The arguments a choice of values stands for. -/
def fcombination (kw : List (Key × List FVal)) (sel : List Nat) : List (PyStr × FVal) :=
  ((kw.map (·.1)).zip (choose (kw.map (·.2)) sel)).flatMap fun x => fargs x.1 x.2

/-- `_001`, `_002`, ...: at least three digits. -/
def numbered (s : PyStr) (index : Nat) : PyStr :=
  s ++ '_' :: (List.replicate (3 - (decStr (index + 1)).length) '0' ++ decStr (index + 1))

/-- A factory after some options were added; an option that is refused raises, and is not added. -/
def addAll (f : Factory) : List (Key × List FVal) → Factory
  | [] => f
  | (k, l) :: r => match addOptionF k l f with
    | .error _ => addAll f r
    | .ok f => addAll f r

end Verif.DecoSpec
