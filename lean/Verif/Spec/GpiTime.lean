import Verif.Model.GpiTime
import Verif.Spec.SimTime
/-!
Specification: what the simulators' interfaces mean by the halves and numbers they exchange, written with plain numbers.
-/
namespace Verif.GpiTimeSpec
open GpiTime

/-- The number of steps a delay stands for. -/
def delaySteps : Delay → Int
  | .hl t => t.high.toNat * 2 ^ 32 + t.low.toNat
  | .num t => t

/-- What the simulator answers when `now` steps have passed: the two halves, unsigned, or both as signed 32-bit numbers. -/
inductive Tells : Iface → Nat → Now → Prop
  | vpi (t : TimeHL) : Tells .vpi (t.high.toNat * 2 ^ 32 + t.low.toNat) (.hl t)
  | vhpi (t : TimeHL) : Tells .vhpi (t.high.toNat * 2 ^ 32 + t.low.toNat) (.hl t)
  | fli (now : Nat) (u l : Int) : now < 2 ^ 64 → -2 ^ 31 ≤ u → u < 2 ^ 31 → -2 ^ 31 ≤ l → l < 2 ^ 31 →
      (u - (now / 2 ^ 32 : Nat)) % 2 ^ 32 = 0 → (l - (now % 2 ^ 32 : Nat)) % 2 ^ 32 = 0 → Tells .fli now (.nums u l)

/-- What the simulator answers when a step is `10^e` seconds. -/
inductive TellsPrec : Iface → Int → Prec → Prop
  | vpi (e : Int) : TellsPrec .vpi e (.exp e)
  | fli (e : Int) : TellsPrec .fli e (.exp e)
  | vhpi (e : Int) (h l : BitVec 32) : -15 ≤ e → h.toNat < 2 ^ 31 → h.toNat * 2 ^ 32 + l.toNat = 10 ^ (e + 15).toNat →
      TellsPrec .vhpi e (.phys h l)

end Verif.GpiTimeSpec
