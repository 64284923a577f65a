import Verif.Model.GpiStore
/-!
# `cocotb.packages` (src/cocotb/_init.py)

Simplification: with Icarus Verilog the children of each package are looked up at once (`_discover_all`, _init.py:98-99); what that
gives is C94, and it makes no difference to the packages found.
-/
namespace Verif.Packages
open Gpi

/-- `for pkg in pkgs`, _init.py:89: calls of `iterator_next` up to the end (bind.cpp:461-471). `none`: undefined behaviour, or more than
`fuel` calls. -/
def drain (D : List Impl) (k : Nat) : Nat → St → Option (St × List Nat)
  | 0, _ => none
  | fuel + 1, s =>
    match exec D s (.next k) with
    | none => none
    | some (s1, .handle r) => (drain D k fuel s1).map fun x => (x.1, r :: x.2)
    | some (s1, _) => some (s1, [])

/-- How many calls it takes: one for each thing left, and one for the end. -/
def calls (s : St) (k : Nat) : Nat :=
  match s.iters[k]? with
  | some (some it) => it.rest.length + 1
  | _ => 1

/-- `handle._name`, handle.py:88-94. -/
def nameOf (s : St) (r : Nat) : Text := ((s.objs[r]?).map Obj.name).getD []

/-- `pkg_dict[name] = handle`, _init.py:93, 100. -/
def dictOf (s : St) : List Nat → List (Text × Nat) → List (Text × Nat)
  | [], d => d
  | r :: rs, d => dictOf s rs (dictSet d (nameOf s r) r)

/-- `_process_packages`, _init.py:79-102: the attributes of `cocotb.packages`. `none`: the simulation ends with a crash. -/
def process (D : List Impl) (s : St) : Option (St × List (Text × Nat)) :=
  match exec D s (.iterate none .packages) with
  | none => none
  | some (s1, .iter k) => (drain D k (calls s1 k) s1).map fun x => (x.1, dictOf x.1 x.2 [])
  | some (s1, _) => some (s1, [])

end Verif.Packages
