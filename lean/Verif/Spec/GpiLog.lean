import Verif.Model.GpiLog
/-!
# Which messages are logged

As documented by Python's `logging`: the level of a logger is the one given to it last, the effective level that of the logger or
else of the nearest ancestor that has one, and a message is logged if its level is at least that and above the one disabled.
-/
namespace Verif.GpiLog

/-- The last value. -/
def lastOr (d : Nat) (l : List Nat) : Nat := (l.getLast?).getD d

/-- The level given to a logger; the root logger begins with WARNING. -/
def ownLevel (h : List Op) (name : Name) : Nat :=
  lastOr (if name = [] then 30 else 0) (h.filterMap fun o => match o with
    | .setLevel n l => if n = name then some l else none
    | _ => none)

/-- The level disabled. -/
def disabledLevel (h : List Op) : Nat :=
  lastOr 0 (h.filterMap fun o => match o with
    | .disable l => some l
    | _ => none)

/-- `l` is the effective level of a logger. -/
inductive Effective (own : Name → Nat) : Name → Nat → Prop where
  | own {n} : own n ≠ 0 → Effective own n (own n)
  | inherited {c p l} : own (c :: p) = 0 → Effective own p l → Effective own (c :: p) l
  | unset : own [] = 0 → Effective own [] 0

/-- A message of a logger is to be logged. -/
def ToLog (h : List Op) (name : Name) (level : Nat) : Prop :=
  disabledLevel h < level ∧ ∃ l, Effective (ownLevel h) name l ∧ l ≤ level

end Verif.GpiLog
