import Verif.Model.PytestFix
/-!
# Specification: values of fixtures, reports and captured log messages under pytest
-/
namespace Verif.PytestFixSpec
open Verif.PytestFix

mutual
/-- The fixture `n` has the value `v`: its code returns it for the values of the fixtures it requests. -/
inductive Has (F : Nat → Fixture) : Nat → Val → Prop
  | intro (n : Nat) (v : Val) (vs : List Val) : HasAll F (F n).args vs → (F n).code vs = .ok v → Has F n v

/-- These fixtures have these values. -/
inductive HasAll (F : Nat → Fixture) : List Nat → List Val → Prop
  | nil : HasAll F [] []
  | cons (n : Nat) (v : Val) (ns : List Nat) (vs : List Val) : Has F n v → HasAll F ns vs → HasAll F (n :: ns) (v :: vs)
end

/-- What a call gets is what its fixtures have. -/
def Right (F : Nat → Fixture) (ts : List Test) : Call → Prop
  | .fixture n vs => HasAll F (F n).args vs
  | .test k vs => ∃ t, ts[k]? = some t ∧ HasAll F t.args vs

/-- The number of the test, if it is a call of a test. -/
def testNumber : Call → Option Nat
  | .fixture _ _ => none
  | .test k _ => some k

/-- Fixtures return values of the user's. -/
def OwnValues (F : Nat → Fixture) : Prop := ∀ n vs v, (F n).code vs = .ok v → ∃ u, v = .user u

/-- pytest's order: a fixture comes after those it requests; the arguments of the test are among the fixtures. -/
def Ordered (F : Nat → Fixture) (t : Test) : Prop :=
  (∀ pre n post, t.fixtures = pre ++ n :: post → ∀ a ∈ (F n).args, a ∈ pre) ∧ ∀ a ∈ t.args, a ∈ t.fixtures

/-- Fixtures that are no coroutines request no coroutines. -/
def SyncFirst (F : Nat → Fixture) : Prop := ∀ n, (F n).async = false → ∀ a ∈ (F n).args, (F a).async = false

/-- The fixtures of the test all have values. -/
def Sound (F : Nat → Fixture) (t : Test) : Prop := ∀ n ∈ t.fixtures, ∃ v, Has F n v

/-- The reports among messages, in order. -/
def reports (ms : List Msg) : List Nat := ms.filterMap fun m => match m with | .report n => some n | _ => none

/-- The reports handed on to the plugins, in order. -/
def handedOn (as : List Act) : List Nat := as.filterMap fun a => match a with | .logged n => some n | _ => none

/-- The level in force during a phase: the lower of the root logger's and that of `--log-level`. -/
def levelIn (root : Nat) : Option Nat → Nat
  | none => root
  | some l => if l ≤ root then l else root

end Verif.PytestFixSpec
