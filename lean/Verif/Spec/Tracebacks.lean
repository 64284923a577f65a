import Verif.Model.Tracebacks
/-!
# What a traceback should show
-/
namespace Verif.Spec.Tracebacks

open Verif.Tracebacks (Frame Task Exc Kind Src Op)

/-- The way of the exception task `t` ended with: the frames of the task and, if it came from another task, before that
(further inside) the way of that one's. -/
inductive Way : List Op → Task → List Frame → Prop where
  | here {pre t k e fs} : Way (pre ++ [.leave t k (.new e) fs]) t fs
  | from {pre t k u fs ws} : Way pre u ws → Way (pre ++ [.leave t k (.of u) fs]) t (fs ++ ws)
  | later {pre op t ws} : Way pre t ws → Way (pre ++ [op]) t ws

/-- Histories that can happen: a task ends once, new objects are new, and the result of a task is taken after its end. -/
inductive Possible : List Op → Prop where
  | nil : Possible []
  | new {pre t k e fs} : Possible pre → (∀ ws, ¬ Way pre t ws) → (∀ t' k' fs', Op.leave t' k' (.new e) fs' ∉ pre) →
      Possible (pre ++ [.leave t k (.new e) fs])
  | of {pre t k u fs ws} : Possible pre → (∀ ws, ¬ Way pre t ws) → Way pre u ws → Possible (pre ++ [.leave t k (.of u) fs])
  | look {pre u fs ws} : Possible pre → Way pre u ws → Possible (pre ++ [.look u fs])

/-- Does a step take the result of task `u`? -/
def takes (u : Task) : Op → Bool
  | .leave _ _ (.of v) _ => v == u
  | .leave _ _ (.new _) _ => false
  | .look v _ => v == u

/-- No result is taken twice. -/
def OneTaker (ops : List Op) : Prop := ∀ u, ops.countP (takes u) ≤ 1

end Verif.Spec.Tracebacks
