import Verif.Model.LogicArray
/-!
# The deprecated attributes of `LogicArray` (src/cocotb/types/_logic_array.py)

The deprecation warning that each of them raises is not modelled.
-/
namespace Verif.LA
open Verif

/-- `a[:]`. -/
def whole : PySlice := ⟨none, none, none⟩

/-- `a.binstr`, _logic_array.py:645-664. -/
def binstr (a : LA) : PyM PyStr × LA := a.getStr

/-- `a.binstr = value`, _logic_array.py:666-671. -/
def setBinstr (a : LA) (value : PyStr) : PyM Unit × LA := a.setSlice whole (.val (.str value))

/-- `a.integer`, _logic_array.py:678-701. -/
def integer (rx : Option Resolver) (rng : Rng) (a : LA) : PyM Int × LA × Rng := a.toUnsigned rx rng

/-- `a.integer = value`, _logic_array.py:703-708. -/
def setInteger (a : LA) (value : Int) : PyM Unit × LA :=
  match fromUnsigned value (.int a.len) "error" with
  | .error e => (.error e, a)
  | .ok t => a.setSlice whole (.val (.obj t))

/-- `a.signed_integer`, _logic_array.py:710-733. -/
def signedInteger (rx : Option Resolver) (rng : Rng) (a : LA) : PyM Int × LA × Rng := a.toSigned rx rng

/-- `a.signed_integer = value`, _logic_array.py:735-741. -/
def setSignedInteger (a : LA) (value : Int) : PyM Unit × LA :=
  match fromSigned value (.int a.len) "error" with
  | .error e => (.error e, a)
  | .ok t => a.setSlice whole (.val (.obj t))

/-- `a.buff`, _logic_array.py:743-769. -/
def buff (rx : Option Resolver) (rng : Rng) (a : LA) : PyM (List Byte) × LA × Rng := a.toBytes rx rng .big

/-- `a.buff = value`, _logic_array.py:771-777. -/
def setBuff (a : LA) (value : List Byte) : PyM Unit × LA :=
  match fromBytes value (some (.int a.len)) .big with
  | .error e => (.error e, a)
  | .ok t => a.setSlice whole (.val (.obj t))

end Verif.LA
