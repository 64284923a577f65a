import Verif.Model.LogicArray
/-!
# Warnings about changed indexing (src/cocotb/types/_indexing.py, handle.py)

`COCOTB_INDEXING_CHANGED_WARNING` marks the values read from handles; reading an index or a slice of a
marked value warns. What the reads return is `Arr.getItem`, `Arr.getSlice`, `LA.getItem` and `LA.getSlice`;
here are the warnings. Simplification: Python's filters for warnings are not modelled, `warnings.warn` is the
warning.
-/
namespace Verif.IndexChange

/-- `indexing_changed`, _indexing.py:12-13. -/
def indexingChanged (r : Range) : Bool :=
  match r.direction with
  | .ok .to => decide (r.left ≠ 0)
  | _ => true

/-- The argument `warn_indexing` in handle.py:1026 and 1332-1334; `on` is `do_indexing_changed_warning`,
_indexing.py:9. -/
def flag (on : Bool) (r : Range) : Bool := if on then indexingChanged r else false

/-- `ArrayObject.get`, handle.py:1022-1027, for elements `values`. -/
def arrayValue {α : Type} (on : Bool) (values : List α) (r : Range) : Arr α := Arr.fromHandle values r (flag on r)

/-- `LogicArrayObject.get`, handle.py:1327-1335, of a handle with the range `r`. -/
def logicValue (on : Bool) (binstr : PyStr) (r : Range) : LA := LA.fromHandle binstr (flag on r)

/-- The two texts `Update index …` and `Update slice …`, _array.py:217, 228. -/
inductive Warning where
  | index (i j : Int)
  | slice (start stop start' stop' : Int)
  deriving DecidableEq, Repr

/-- The warning of `a[i]`, _array.py:215-220 and _logic_array.py:840-845: none if building the text raises. -/
def itemWarning (warn : Bool) (r : Range) (i : Int) : Option Warning :=
  if warn then
    match r.getItem i with
    | .ok j => some (.index i j)
    | .error _ => none
  else none

/-- The warning of `a[start:stop]`, _array.py:224-231 and _logic_array.py:849-857. -/
def sliceWarning (warn : Bool) (r : Range) (start stop : Option Int) : Option Warning :=
  if warn then
    let s := start.getD 0
    let t := stop.getD ((r.len : Int) - 1)
    match r.getItem s, r.getItem t with
    | .ok s', .ok t' => some (.slice s t s' t')
    | _, _ => none
  else none

/-- `array[i]` with its warning, _array.py:214-222. -/
def readItem {α : Type} (a : Arr α) (i : Int) : Option Warning × PyM α := (itemWarning a.warn a.range i, a.getItem i)

/-- `array[start:stop]` with its warning, _array.py:223-244. -/
def readSlice {α : Type} (a : Arr α) (start stop : Option Int) : Option Warning × PyM (Arr α) :=
  (sliceWarning a.warn a.range start stop, a.getSlice ⟨start, stop, none⟩)

/-- `logic_array[i]` with its warning, _logic_array.py:837-847: the elements are made first. -/
def readLogicItem (a : LA) (i : Int) : Option Warning × PyM Logic :=
  (match a.getArray.1 with
   | .ok _ => itemWarning a.warn a.range i
   | .error _ => none, (a.getItem i).1)

/-- `logic_array[start:stop]` with its warning, _logic_array.py:848-869. -/
def readLogicSlice (a : LA) (start stop : Option Int) : Option Warning × PyM LA :=
  (match a.getArray.1 with
   | .ok _ => sliceWarning a.warn a.range start stop
   | .error _ => none, (a.getSlice ⟨start, stop, none⟩).1)

end Verif.IndexChange
