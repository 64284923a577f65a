import Verif.Model.Paths
import Verif.Spec.Hierarchy
/-!
# What the path of an object is
-/
namespace Verif.PathSpec
open Verif Hier Paths Spec

/-- What an object stands for: a handle and the class chosen for it. -/
abbrev Node := Hdl × Kind

/-- `b` is what looking up key `k` in `a` gives by ordinary lookup; the bits of a LogicArrayObject are single bits whatever they are
in the design. -/
def Child (D : PDesign) (a : Node) (k : Key) (b : Node) : Prop :=
  answer D.toDesign a.2 a.1 k = some b.1 ∧ b.2 = (if a.2 = .logicArray then .leaf else D.kind b.1) ∧ b.2 ≠ .unsupported

/-- What a path has for a key: `.name`, `::name` in packages, `[index]`. -/
def piece (D : PDesign) (h : Hdl) : Key → PyStr
  | .name n => (if D.pkg h then [':', ':'] else ['.']) ++ n
  | .idx i => '[' :: intStr i ++ [']']

/-- `p` is the text of the way from the handle `r` along the keys `ks` to `a`. -/
inductive Way (D : PDesign) (r : Hdl) : List Key → Node → PyStr → Prop where
  | root : D.kind r ≠ .unsupported → Way D r [] (r, D.kind r) (D.name r)
  | step {ks a p k b} : Way D r ks a p → Child D a k b → Way D r (ks ++ [k]) b (p ++ piece D a.1 k)

/-- A simple identifier, or an escaped one between backslashes. -/
def Ident (n : PyStr) : Prop :=
  (n ≠ [] ∧ ∀ c ∈ n, c ≠ '.' ∧ c ≠ ':' ∧ c ≠ '[' ∧ c ≠ '\\') ∨
  ∃ m, n = '\\' :: m ++ ['\\'] ∧ ∀ c ∈ m, c ≠ '\\'

/-- What an object of the program stands for. -/
def node (x : PObj) : Node := (x.hdl, x.cls)

/-- The keys of listed children have `G`. -/
def ListedG (D : PDesign) (G : Key → Prop) : Prop :=
  ∀ h c k, c ∈ D.children h → subKey D.toDesign (D.kind h) h c = some k → G k

/-- The raw handles a program asks for. -/
def roots (ops : List POp) : List Hdl := ops.filterMap fun | .root h => some h | _ => none

/-- No lookup uses GPIDiscovery.NATIVE. -/
def Ordinary (ops : List POp) : Prop := ∀ o k, POp.look o k .native ∉ ops

end Verif.PathSpec
