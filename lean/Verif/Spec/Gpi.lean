import Verif.Model.GpiStore
/-!
# What handles stand for: paths in the design
-/
namespace Verif.Gpi

/-- A place in the design: a toplevel module, a package, something with a name in a place, or an element. -/
inductive Path where
  | root (n : Text)
  | package (n : Text)
  | child (p : Path) (n : Text)
  | elem (p : Path) (i : Int)
  deriving DecidableEq, Repr

def Path.isPackage : Path → Bool
  | .package _ => true
  | _ => false

/-- The Verilog notation of a path: `top.sub.blk[3].sig`, `pkg::param`. -/
def Path.text : Path → Text
  | .root n => n
  | .package n => n ++ [58, 58]
  | .child p n => p.text ++ (if p.isPackage then [] else [dot]) ++ n
  | .elem p i => p.text ++ lbr :: (decInt i ++ [93])

/-- A name without the characters that structure a path: `.`, `[`, `]`, `:`. -/
def Simple (n : Text) : Prop := n ≠ [] ∧ ∀ c ∈ n, c ≠ 46 ∧ c ≠ 91 ∧ c ≠ 93 ∧ c ≠ 58

instance (n : Text) : Decidable (Simple n) := by unfold Simple; infer_instance

/-- All names of the path are simple and all indices fit into 32 bits. -/
def Path.Ok : Path → Prop
  | .root n => Simple n
  | .package n => Simple n
  | .child p n => p.Ok ∧ Simple n
  | .elem p i => p.Ok ∧ isInt32 i = true

/-- What looking up a path step by step gives when nothing else was looked up before. Generate blocks have
elements but no names in them (`HierarchyArrayObject` offers none, handle.py:516-620). -/
def direct (c : Flavor) (V : Vpi) : Path → Option Obj
  | .root n => vpiRoot V 0 (some n)
  | .package n => (packageItems V 0).findSome? fun
      | .native o => if o.full = n ++ [58, 58] then some o else none
      | _ => none
  | .child p n => (direct c V p).bind fun o => if o.type = .genArray then none else vpiByName c V 0 n o
  | .elem p i => (direct c V p).bind fun o => vpiByIndex c V 0 i o

/-- Objects whose children Python asks for by iterating: modules, generate blocks, structures and
packages. -/
def GType.scope (t : GType) : Bool :=
  t == .module || t == .genArray || t == .structure || t == .package

/-- The name of an object whose initialisation failed. -/
def unknownName : Text := ofStr "unknown".toList

/-- Iterating over the simulator's objects and looking them up by name or index agree: everything an
iteration lists is what a lookup of its path finds, toplevel modules have different simple names and so
have packages. -/
structure Consistent (c : Flavor) (V : Vpi) : Prop where
  objects : ∀ p o l, p.Ok → direct c V p = some o → o.full = p.text → o.type.scope = true →
    vpiItems c V 0 (some o) .objects = .items l → ∀ o', Item.native o' ∈ l → o'.full ≠ unknownName →
      ∃ q : Path, q.Ok ∧ direct c V q = some o' ∧ o'.full = q.text
  named : ∀ h ∈ V.modules.getD [], V.fullName h ≠ none
  roots : ∀ o, Item.native o ∈ rootItems V 0 → Simple o.full ∧ vpiRoot V 0 (some o.full) = some o
  packages : ∀ o, Item.native o ∈ packageItems V 0 → ∃ n, Simple n ∧ direct c V (.package n) = some o

/-- The VPI types of hierarchy. -/
def VType.scope (t : VType) : Bool :=
  t == .module || t == .interface || t == .port || t == .gate || t == .switch || t == .primTerm ||
    t == .genScope || t == .genScopeArray

/-- The last part of a dotted name. -/
def lastPart (n : Text) : Text := (n.reverse.takeWhile (· != dot)).reverse

/-- How an object named `n` by the simulator is called in `o`: members of structures come with the name
of the structure. -/
def nameIn (o : Obj) (n : Text) : Text := if o.type = .structure then lastPart n else n

/-- A simulator whose objects have the names and full names one expects: what it lists in an object it
finds under the full name, generate blocks have no object of their own when found by name (except a
`vpiGenScopeArray`), are never listed as `vpiGenScopeArray` and are not called like the instance they
are in. `o` is the object at path `p`. -/
structure Regular (c : Flavor) (V : Vpi) : Prop where
  notIus : c.ius = false
  /-- A scope listed in an object is found by its name, or is element `i` of a generate block (or of an
  array of instances) `b`. -/
  region : ∀ p o h, p.Ok → direct c V p = some o → o.type ≠ .genArray →
    h ∈ (V.iter .internalScope o.hdl).getD [] → isRegion V h = true →
    ∃ n, V.name h = some n ∧ ((Simple n ∧ V.byName (Path.child p n).text = some h) ∨
      ∃ b i, Simple b ∧ isInt32 i = true ∧ n = b ++ lbr :: (decInt i ++ [93]) ∧
        V.byName (Path.elem (.child p b) i).text = some h ∧ V.name o.hdl ≠ some b ∧
        ∀ g, V.byName (Path.child p b).text = some g → V.type g = some .genScopeArray)
  /-- Anything else listed in a scope is found by its name. -/
  item : ∀ p o rel h n, p.Ok → direct c V p = some o → o.type.scope = true → o.type ≠ .genArray →
    h ∈ (V.iter rel o.hdl).getD [] → ¬ (rel = .internalScope ∧ isRegion V h = true) → V.name h = some n →
    Simple (nameIn o n) ∧ V.byName (Path.child p (nameIn o n)).text = some h ∧ V.type h ≠ some .genScopeArray
  /-- Scopes are called what they are found by. -/
  own : ∀ p n h t, p.Ok → Simple n → V.byName (Path.child p n).text = some h → V.type h = some t →
    t.scope = true → t ≠ .genScopeArray → V.name h = some n
  ownElem : ∀ p o i h t, p.Ok → direct c V p = some o → isInt32 i = true →
    V.byIndex o.hdl i = some h ∨ V.byName (Path.elem p i).text = some h → V.type h = some t →
    t.scope = true → t ≠ .genScopeArray ∧ V.name h = some (o.name ++ lbr :: (decInt i ++ [93]))

/-- The calls of a user that looks up simple names in objects other than generate blocks and iterates
over scopes: no NATIVE discovery, no
lookup after the end of the simulation. `s` is the state at the end (objects do not change). -/
structure Plain (s : St) (ops : List Op) : Prop where
  live : .finalize ∉ ops
  auto : ∀ p n d, .byName p n d ∈ ops → d = .auto ∧ Simple n
  names : ∀ p n d o, .byName p n d ∈ ops → s.get p = some o → o.type ≠ .genArray
  scopes : ∀ p o, .iterate (some p) .objects ∈ ops → s.get p = some o → o.type.scope = true

/-- The result of a call is the one that belongs to the path. -/
def Right (c : Flavor) (V : Vpi) (path : Nat → Path) : Op → Res → Prop
  | .root (some n), .handle r => path r = .root n
  | .root (some n), .none => direct c V (.root n) = none
  | .root none, .handle r => ∃ n, path r = .root n
  | .byName p n _, .handle r => path r = .child (path p) n
  | .byName p n _, .none => direct c V (.child (path p) n) = none
  | .byIndex p i, .handle r => path r = .elem (path p) i
  | .byIndex p i, .none => direct c V (.elem (path p) i) = none
  | .byIndex _ i, .overflow => isInt32 i = false
  | .next _, .handle r => (path r).Ok
  | .next _, .none => True
  | .iterate _ _, .iter _ => True
  | .iterate _ _, .none => True
  | .root none, .none => V.modules.getD [] = [] ∨ ∀ h ∈ V.modules.getD [], isModule V h = true →
      ((V.fullName h).getD []).head? = some 92
  | _, _ => False

/-- A call with a handle or an iterator that is still there: lookups and iterations in live objects, `next` on an
iterator that has not ended. -/
def Op.Used (s : St) : Op → Prop
  | .byName p _ _ => (s.get p).isSome
  | .byIndex p _ => (s.get p).isSome
  | .iterate (some p) _ => (s.get p).isSome
  | .iterate none sel => sel = .packages ∨ sel = .roots
  | .next k => ∃ it, s.iters[k]? = some (some it)
  | .root _ => True
  | .finalize => True

/-- What an implementation's answer in an iteration stands for: its own object, or what the other implementations
find for the name or the raw handle. -/
def resolved (D : List Impl) (p : Option Obj) (impl : Nat) (x : Item) (o : Obj) : Prop :=
  match x with
  | .native o' => o = o'
  | .notNative n => ∃ po k I, p = some po ∧ k ≠ impl ∧ D[k]? = some I ∧ I.byName n po = some o
  | .notNativeNoName raw => ∃ po k I, p = some po ∧ k ≠ impl ∧ D[k]? = some I ∧ I.fromHandle raw po = some o
  | .nativeNoName => False
  | .raises => False

end Verif.Gpi
