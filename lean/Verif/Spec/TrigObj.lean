import Verif.Model.TrigObj
/-!
# Specification: triggers for signals
-/
namespace Verif.TrigObjSpec
open Verif TrigObj

/-- Objects whose value changes can be waited for: those with a value of their own that is not constant; edges need one bit. -/
def Offered (W : World) (e : Edge) (h : Nat) : Prop :=
  W.const h = false ∧
  (W.kind h = .logic ∨ W.kind h = .logicArray 1 ∨
    ((e = .change ∨ e = .old) ∧ ((∃ n, W.kind h = .logicArray n) ∨ W.kind h = .real ∨ W.kind h = .enum ∨ W.kind h = .integer ∨
      W.kind h = .string)))

/-- Two expressions are for the same trigger: the same kind of edge of the same object, or the same phase. Timers are
never the same. -/
def Same : Want → Want → Prop
  | .edge e h _, .edge e' h' _ => e = e' ∧ h = h'
  | .single k, .single k' => k = k'
  | _, _ => False

/-- The trigger an expression is for. -/
def meant : Want → Trig
  | .edge e h _ => .edge e h
  | .single k => .single k
  | .timer => .timer

end Verif.TrigObjSpec
