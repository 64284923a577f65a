import Verif.Model.Packages
import Verif.Spec.GpiDesigns
/-!
# The packages of a design
-/
namespace Verif.Spec
open Gpi

/-- The packages with a name, in the order of the simulator: object and name. -/
def named (V : Vpi) : List (H × Text) :=
  (V.instances.getD []).filterMap fun h => if V.type h = some .package then (V.name h).map fun n => (h, n) else none

/-- As simulators give packages: different names without colons, and a full name with or without `::`. -/
structure Usual (V : Vpi) : Prop where
  distinct : ((named V).map (·.2)).Nodup
  plain : ∀ p ∈ named V, 58 ∉ p.2
  full : ∀ p ∈ named V, V.fullName p.1 = some p.2 ∨ V.fullName p.1 = some (p.2 ++ [58, 58])

/-- The simulation was loaded with the VPI as implementation `j`, and no implementation before it knows packages. -/
def WithVpi (D : List Impl) (c : Flavor) (V : Vpi) (j : Nat) : Prop :=
  D[j]? = some (vpiImpl c V j) ∧ ∀ i I, i < j → D[i]? = some I → I.iterate none .packages = .null

/-- There is no handle of a package yet, and every deleted object was made before. -/
structure Fresh (V : Vpi) (s : St) : Prop where
  map : ∀ p ∈ named V, dictGet s.map (p.2 ++ [58, 58]) = none
  freed : ∀ r ∈ s.freed, r < s.objs.length

/-- `ns` has an attribute for each package of the design and no other, and the attribute is a handle of that package. -/
def Shows (V : Vpi) (s : St) (ns : List (Text × Nat)) : Prop :=
  ns.map (·.1) = (named V).map (·.2) ∧
  ∀ p ∈ named V, ∃ r o, dictGet ns p.2 = some r ∧ s.get r = some o ∧ o.hdl = p.1 ∧ o.type = .package ∧ o.name = p.2 ∧
    o.full = p.2 ++ [58, 58]

end Verif.Spec
