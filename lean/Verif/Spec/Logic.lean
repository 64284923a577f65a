import Verif.Model.Logic
/-!
# Specification of nine-valued logic (IEEE 1164), written without tables
-/
namespace Verif
/-- The characters of a list of values. -/
def chrs (l : List Logic) : PyStr := l.map Logic.chr
end Verif

namespace Verif.Spec
open Logic

/-- The four outcomes an operator can produce. -/
inductive X01U where
  | u | x | zero | one
  deriving DecidableEq, Repr

/-- Forget strength: `L`,`H` count as `0`,`1`; `Z`,`W`,`-` count as unknown. -/
def strip : Logic → X01U
  | U => .u
  | F0 => .zero | L => .zero
  | F1 => .one | H => .one
  | X => .x | Z => .x | W => .x | D => .x

def inject : X01U → Logic
  | .u => U | .x => X | .zero => F0 | .one => F1

/-- Conjunction: a zero decides; otherwise uninitialised beats unknown beats one. -/
def and4 (a b : X01U) : X01U :=
  if a = .zero ∨ b = .zero then .zero
  else if a = .u ∨ b = .u then .u
  else if a = .x ∨ b = .x then .x
  else .one

/-- Disjunction: a one decides. -/
def or4 (a b : X01U) : X01U :=
  if a = .one ∨ b = .one then .one
  else if a = .u ∨ b = .u then .u
  else if a = .x ∨ b = .x then .x
  else .zero

/-- Exclusive or: known only if both are known. -/
def xor4 (a b : X01U) : X01U :=
  if a = .u ∨ b = .u then .u
  else if a = .x ∨ b = .x then .x
  else if a = b then .zero else .one

def not4 : X01U → X01U
  | .u => .u | .x => .x | .zero => .one | .one => .zero

/-- The Boolean meaning of a value, if it has one. -/
def boolVal : Logic → Option Bool
  | F0 => some false | L => some false | F1 => some true | H => some true | _ => none

/-- Characters of the documented literals with the value they denote. -/
def literals : List (Char × Logic) :=
  [('U', U), ('u', U), ('X', X), ('x', X), ('0', F0), ('1', F1), ('Z', Z), ('z', Z),
   ('W', W), ('w', W), ('L', L), ('l', L), ('H', H), ('h', H), ('-', D)]

/-- Boolean expressions over `n` variables. -/
inductive BExp where
  | var (i : Nat)
  | and (a b : BExp)
  | or (a b : BExp)
  | xor (a b : BExp)
  | not (a : BExp)

/-- Ordinary Boolean meaning. -/
def BExp.eval (env : Nat → Bool) : BExp → Bool
  | .var i => env i
  | .and a b => a.eval env && b.eval env
  | .or a b => a.eval env || b.eval env
  | .xor a b => Bool.xor (a.eval env) (b.eval env)
  | .not a => !a.eval env

/-- The same expression evaluated with Python operators on Logic/Bit objects. -/
def BExp.run (env : Nat → Obj) : BExp → PyM Obj
  | .var i => .ok (env i)
  | .and a b => do binop Logic.and (← a.run env) (← b.run env)
  | .or a b => do binop Logic.or (← a.run env) (← b.run env)
  | .xor a b => do binop Logic.xor (← a.run env) (← b.run env)
  | .not a => do Logic.inv (← a.run env)

/-- The Bit of a Boolean. -/
def bitOf (b : Bool) : Obj := ⟨.bit, if b then F1 else F0⟩

/-- Documented effect of each resolver on one value; `random` may choose. -/
def resolveOk (r : Resolver) (a b : Logic) : Prop :=
  match r with
  | .error => b = a
  | .weak => b = (match a with | L => F0 | H => F1 | W => X | v => v)
  | .zeros => b = (if boolVal a = some true then F1 else F0)
  | .ones => b = (if boolVal a = some false then F0 else F1)
  | .random => (b = F0 ∨ b = F1) ∧ (∀ v, boolVal a = some v → b = (if v then F1 else F0))

end Verif.Spec
