import Verif.Model.Fli
/-!
# Listing what is below an object of Questa's FLI: `FliIterator`, `fli/FliImpl.cpp`

The state of the iterator is the relation that is being listed, the handles of it that have not been
returned and the relations still to come. Log messages and memory management are not modelled.
-/
namespace Verif.FliIter

open Vhpi (GType Dir H)
open Fli (createObj subHdl sameLabel)

/-- What the iterator can list: `FliIterator::OneToMany`, FliImpl.hpp:387-393. -/
inductive Otm where
  | constants | signals | regions | signalSubs | variableSubs
  deriving DecidableEq, Repr

/-- The kinds of objects `iterate_over` knows (FliImpl.cpp:684-737): regions, signals and variables (with
constants and generics). -/
inductive PKind where
  | region | signal | variable | unknown
  deriving DecidableEq, Repr

/-- The simulator's answers, with those the iterator asks for: the kind of an object; the constants and
signals of a region in the simulator's order (`mti_FirstVarByRegion`, `mti_FirstSignal`, and their
successors); the names of variables, of signals (`mti_GetSignalName`) and of parts of signals
(`mti_GetSignalNameIndirect`), none for a null pointer. A region always has a name. -/
structure Sim extends Fli.Fli where
  pkind : H → PKind
  consts : H → List H
  signals : H → List H
  varName : H → Option Text
  sigName : H → Option Text
  partName : H → Option Text

/-- `iterate_over`, FliImpl.cpp:684-737; `none` is an object it does not know. -/
def iterateOver : PKind → Option (List Otm)
  | .region => some [.constants, .signals, .regions]
  | .signal => some [.signalSubs]
  | .variable => some [.variableSubs]
  | .unknown => none

/-- The indexes of an array in the order of its declaration, FliImpl.cpp:1051-1068. -/
def indexes (l r : Int) : List Int :=
  if l > r then (List.range (l - r + 1).toNat).map fun (k : Nat) => l - k
  else (List.range (r - l + 1).toNat).map fun (k : Nat) => l + k

/-- The parts of a signal or variable, FliImpl.cpp:1037-1102. A part that is not there is left out here; it
would be a null pointer in the list. -/
def parts (F : Sim) (p : Fli.Obj) : List H :=
  if p.type = .structure then F.subs p.hdl
  else if p.indexable then (indexes p.left p.right).filterMap (subHdl F.toFli p)
  else []

/-- `FliIterator::populate_handle_list`, FliImpl.cpp:1005-1106. The lists of the iterator are never
cleared, but no two relations of one kind of object use the same one. -/
def populate (F : Sim) (p : Fli.Obj) : Otm → List H
  | .constants => F.consts p.hdl
  | .signals => F.signals p.hdl
  | .regions => F.lower p.hdl
  | .signalSubs | .variableSubs => parts F p

/-- The state of a `FliIterator`: `one2many`, the rest of `m_currentHandles` and the relations after
`one2many`. -/
structure It where
  cur : Otm
  handles : List H
  rest : List Otm
  deriving DecidableEq, Repr

/-- Relations that are not looked at: those of a pseudo-region other than regions, FliImpl.cpp:763-770 and
859-865. -/
def skips (p : Fli.Obj) (o : Otm) : Bool := p.type == .genArray && o != .regions

/-- The constructor's search for a relation with handles, FliImpl.cpp:760-803; `none` is `selected == NULL`. -/
def start (F : Sim) (p : Fli.Obj) : List Otm → Option It
  | [] => none
  | o :: rest =>
    if skips p o then start F p rest
    else match populate F p o with
      | [] => start F p rest
      | h :: hs => some ⟨o, h :: hs, rest⟩

/-- `FliIterator::FliIterator`, FliImpl.cpp:739-807. -/
def mk (F : Sim) (p : Fli.Obj) : Option It :=
  match iterateOver (F.pkind p.hdl) with
  | none => none
  | some os => start F p os

/-- Is a handle returned? Below a pseudo-region only the blocks of its loop are, FliImpl.cpp:829-847. -/
def passes (F : Sim) (p : Fli.Obj) (h : H) : Bool :=
  if p.type = .genArray then F.forGen h && sameLabel (F.regionName h) p.name else true

/-- The next handle of the current relation that is returned, with the handles after it,
FliImpl.cpp:826-849. -/
def pick (F : Sim) (p : Fli.Obj) : List H → Option (H × List H)
  | [] => none
  | h :: hs => if passes F p h then some (h, hs) else pick F p hs

/-- The loop of `next_handle` over the relations after the current one, FliImpl.cpp:850-886. -/
def advance (F : Sim) (p : Fli.Obj) : List Otm → Option (H × It)
  | [] => none
  | o :: rest =>
    if skips p o then advance F p rest
    else match pick F p (populate F p o) with
      | some (h, hs) => some (h, ⟨o, hs, rest⟩)
      | none => advance F p rest

/-- The handle `next_handle` works on, FliImpl.cpp:819-892. -/
def nextObj (F : Sim) (p : Fli.Obj) (it : It) : Option (H × It) :=
  match pick F p it.handles with
  | some (h, hs) => some (h, { it with handles := hs })
  | none => advance F p it.rest

/-- The name the simulator gives, FliImpl.cpp:894-925. -/
def simName (F : Sim) (o : Otm) (h : H) : Option Text :=
  match o with
  | .constants | .variableSubs => F.varName h
  | .signals => F.sigName h
  | .signalSubs => F.partName h
  | .regions => some (F.regionName h)

/-- What `next_handle` gives to `gpi_next`, gpi_priv.hpp:186-200: an object, a name without an object,
something without a name, or something without a name that is left to the other interfaces. -/
inductive Item where
  | native (o : Fli.Obj)
  | notNative (name : Text)
  | nativeNoName
  | notNativeNoName (raw : H)
  deriving DecidableEq, Repr

/-- What `next_handle` makes of a handle, FliImpl.cpp:927-1003. -/
def emit (F : Sim) (p : Fli.Obj) (o : Otm) (h : H) : Item :=
  match simName F o h with
  | none => if F.vhdl h then .nativeNoName else .notNativeNoName h
  | some cn =>
    let (name, obj) : Text × H :=
      if o = .regions ∧ p.type ≠ .genArray ∧ F.forGen h then
        match Gpi.cutLast 40 cn with
        | some (a, _) => if a = [] then (cn, h) else (a, p.hdl)
        | none => (cn, h)
      else (cn, h)
    let (name, full) : Text × Text :=
      if p.full = [47] then (name, p.full ++ name)
      else if o = .signalSubs ∨ o = .variableSubs ∨ p.type = .genArray then
        match Gpi.cutLast (if p.type = .structure then 46 else 40) name with
        | some (_, s) => (if p.type ≠ .genArray then s.drop 1 else name, p.full ++ s)
        | none => (name, p.full ++ [47] ++ name)
      else (name, p.full ++ [47] ++ name)
    match createObj F.toFli obj name full with
    | some x => .native x
    | none => .notNative name

/-- `FliIterator::next_handle`, FliImpl.cpp:809-1003; `none` is `END`. -/
def next (F : Sim) (p : Fli.Obj) : Option It → Option (Item × It)
  | none => none
  | some it =>
    match nextObj F p it with
    | some (h, it') => some (emit F p it'.cur h, it')
    | none => none

/-- What `n` calls of `next_handle` give, up to the `END`, after which the iterator is deleted. -/
def calls (F : Sim) (p : Fli.Obj) : Nat → Option It → List Item
  | 0, _ => []
  | n + 1, it =>
    match next F p it with
    | none => []
    | some (i, it') => i :: calls F p n (some it')

/-- What the first `n` calls of a new iterator give, `FliImpl::iterate_handle`, FliImpl.cpp:654-674. -/
def listed (F : Sim) (p : Fli.Obj) (n : Nat) : List Item := calls F p n (mk F p)

end Verif.FliIter
