import Verif.Spec.Gpi
/-!
# Small designs, for examples and counterexamples
-/
namespace Verif.Gpi

/-- A name. -/
def nm (s : String) : Text := ofStr s.toList

/-- A simulator that knows nothing. -/
def noVpi : Vpi where
  type _ := none
  name _ := none
  fullName _ := none
  byName _ := none
  byIndex _ _ := none
  iter _ _ := none
  modules := none
  instances := none
  size _ := 1
  vector _ := false
  packed _ := false
  constType _ := .undefined
  ranges _ := none
  ownRange _ := none

def icarus : Flavor := ⟨false, false⟩

/-- `module top; wire s; for (genvar i = 0; i < 1; i++) begin : g … end endmodule`: object 0 is `top`, 1 is
`top.s`, 2 is `top.g[0]`. -/
def smallVpi : Vpi :=
  { noVpi with
    type := fun h => if h = 0 then some .module else if h = 1 then some .net else if h = 2 then some .genScope else none
    name := fun h => if h = 0 then some (nm "top") else if h = 1 then some (nm "s")
      else if h = 2 then some (nm "g[0]") else none
    fullName := fun h => if h = 0 then some (nm "top") else none
    byName := fun t => if t = nm "top" then some 0 else if t = nm "top.s" then some 1
      else if t = nm "top.g[0]" then some 2 else none
    iter := fun rel h => if h = 0 then (if rel = .net then some [1] else if rel = .internalScope then some [2] else none)
      else none
    modules := some [0] }

/-- `module top; u1_t u1(); endmodule`, where `u1_t` has an instance `u2`: objects 0, 1 and 2. -/
def nestedVpi : Vpi :=
  { noVpi with
    type := fun h => if h ≤ 2 then some .module else none
    name := fun h => if h = 0 then some (nm "top") else if h = 1 then some (nm "u1")
      else if h = 2 then some (nm "u2") else none
    fullName := fun h => if h = 0 then some (nm "top") else none
    byName := fun t => if t = nm "top" then some 0 else if t = nm "top.u1" then some 1
      else if t = nm "top.u1.u2" then some 2 else none
    iter := fun rel h => if rel = .internalScope then (if h = 0 then some [1] else if h = 1 then some [2] else none)
      else none
    modules := some [0] }

/-- `module top; for (…) begin : top … end endmodule` with one element: object 0 is the module, 1 is
`top.top[0]`. -/
def sameNameVpi : Vpi :=
  { noVpi with
    type := fun h => if h = 0 then some .module else if h = 1 then some .genScope else none
    name := fun h => if h = 0 then some (nm "top") else if h = 1 then some (nm "top[0]") else none
    fullName := fun h => if h = 0 then some (nm "top") else none
    byName := fun t => if t = nm "top" then some 0 else if t = nm "top.top[0]" then some 1 else none
    iter := fun rel h => if h = 0 ∧ rel = .internalScope then some [1] else none
    modules := some [0] }

/-- A module `top` (object 0) with an interface `i` (object 1) that has a generate block `g` with one element
(object 2). -/
def interfaceVpi : Vpi :=
  { noVpi with
    type := fun h => if h = 0 then some .module else if h = 1 then some .interface
      else if h = 2 then some .genScope else none
    name := fun h => if h = 0 then some (nm "top") else if h = 1 then some (nm "i")
      else if h = 2 then some (nm "g[0]") else none
    fullName := fun h => if h = 0 then some (nm "top") else none
    byName := fun t => if t = nm "top" then some 0 else if t = nm "top.i" then some 1
      else if t = nm "top.i.g[0]" then some 2 else none
    iter := fun rel h => if rel = .internalScope then (if h = 0 then some [1] else if h = 1 then some [2] else none)
      else none
    modules := some [0] }

/-- A design with a package `p`, which VPI calls `p::` (two characters are needed for the code not to fail) or
`p`. -/
def packageVpi (full : Text) : Vpi :=
  { noVpi with
    type := fun h => if h = 0 then some .package else none
    name := fun h => if h = 0 then some (nm "p") else none
    fullName := fun h => if h = 0 then some full else none
    instances := some [0] }

/-- A module with two arrays of which the simulator gives no bounds for the second dimension… of either: both lookups
`a[0]`, `b[0]` fail to initialise. Objects 1 (`a`) and 2 (`b`), both with a name and one range. -/
def noBoundsVpi : Vpi :=
  { noVpi with
    type := fun h => if h = 0 then some .module else if h = 1 ∨ h = 2 then some .netArray else none
    name := fun h => if h = 0 then some (nm "top") else if h = 1 then some (nm "a") else if h = 2 then some (nm "b") else none
    fullName := fun h => if h = 0 then some (nm "top") else none
    byName := fun t => if t = nm "top" then some 0 else if t = nm "top.a" then some 1 else if t = nm "top.b" then some 2
      else none
    iter := fun rel h => if h = 0 ∧ rel = .netArray then some [1, 2] else none
    modules := some [0]
    ranges := fun h => if h = 1 ∨ h = 2 then some [] else none }

end Verif.Gpi
