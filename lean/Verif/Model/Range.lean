import Verif.Py.Range
/-!
# `cocotb.types.Range`  (src/cocotb/types/_range.py)
-/
namespace Verif

/-- Direction words (`"to"` / `"downto"`). -/
inductive Dir where
  | to | downto
  deriving DecidableEq, Repr

namespace Dir
/-- `_direction_to_step` on the two accepted words, _range.py:192-199. -/
def step : Dir → Int
  | .to => 1
  | .downto => -1

/-- `_direction_to_step` on an arbitrary string, _range.py:192-199
(`direction.lower()` compared with the two words; `lower` is the ASCII lower-casing,
simplification: non-ASCII characters never lower to these ASCII words except U+212A KELVIN,
which does not occur in them). -/
def parse (s : String) : PyM Dir :=
  if s.toLower = "to" then .ok .to
  else if s.toLower = "downto" then .ok .downto
  else .error .valueError

/-- `_step_to_direction`, _range.py:202-207. -/
def ofStep (st : Int) : PyM Dir :=
  if st = 1 then .ok .to
  else if st = -1 then .ok .downto
  else .error .valueError
end Dir

/-- A `Range` object: it stores one Python `range` (attribute `_range`), _range.py:100. -/
structure Range where
  rng : PyRange
  deriving DecidableEq, Repr

namespace Range

/-- `_guess_step`, _range.py:186-189. -/
def guessStep (left right : Int) : Int := if left ≤ right then 1 else -1

/-- `Range(left, right)` and `Range(left, right=right)`, _range.py:89-91, 95-97, 100. -/
def mk2 (left right : Int) : Range :=
  let step := guessStep left right
  ⟨⟨left, right + step, step⟩⟩

/-- `Range(left, direction, right)` with a valid direction, _range.py:92-94, 100. -/
def mk3 (left : Int) (d : Dir) (right : Int) : Range :=
  ⟨⟨left, right + d.step, d.step⟩⟩

/-- `Range(left, direction, right)` with an arbitrary direction string, _range.py:92-94. -/
def mkStr (left : Int) (direction : String) (right : Int) : PyM Range :=
  match Dir.parse direction with
  | .ok d => .ok (mk3 left d right)
  | .error e => .error e

/-- `Range.from_range`, _range.py:102-109. -/
def fromRange (r : PyRange) : PyM Range :=
  match Dir.ofStep r.step with
  | .ok d => .ok (mk3 r.start d (r.stop - r.step))
  | .error e => .error e

/-- `Range.to_range`, _range.py:111-113. -/
def toRange (r : Range) : PyRange := r.rng

/-- `Range.left`, _range.py:115-118. -/
def left (r : Range) : Int := r.rng.start

/-- `Range.direction`, _range.py:120-123. -/
def direction (r : Range) : PyM Dir := Dir.ofStep r.rng.step

/-- `Range.right`, _range.py:125-128. -/
def right (r : Range) : Int := r.rng.stop - r.rng.step

/-- `len(Range)`, _range.py:130-131. -/
def len (r : Range) : Nat := r.rng.len

/-- `Range[int]`, _range.py:139-141. -/
def getItem (r : Range) (i : Int) : PyM Int := r.rng.getItem i

/-- `Range[slice]`, _range.py:142-143. -/
def getSlice (r : Range) (s : PySlice) : PyM Range :=
  match r.rng.getSlice s with
  | .ok x => fromRange x
  | .error e => .error e

/-- `v in Range`, _range.py:148-149. -/
def contains (r : Range) (v : Int) : Bool := r.rng.contains v

/-- `iter(Range)` run to exhaustion, _range.py:151-152. -/
def items (r : Range) : List Int := r.rng.items

/-- `reversed(Range)` run to exhaustion, _range.py:154-155. -/
def reversedItems (r : Range) : List Int := r.rng.reversed.items

/-- `Range == Range`, _range.py:157-160. -/
def beq (a b : Range) : Bool := a.rng.beq b.rng

/-- The key hashed by `hash(Range)`, _range.py:162-163. -/
def hashKey (r : Range) : Nat × Option Int × Option Int := r.rng.hashKey

/-- The search loop of `collections.abc.Sequence.index(value, start, stop)` from position `i`
(`n` bounds the remaining positions; the loop also ends at the first `IndexError`). -/
def seqIndexLoop (r : Range) (v stop : Int) : Nat → Int → PyM Int
  | 0, _ => .error .valueError
  | n + 1, i =>
    if i < stop then
      match r.getItem i with
      | .error _ => .error .valueError
      | .ok x => if x = v then .ok i else seqIndexLoop r v stop n (i + 1)
    else .error .valueError

/-- `collections.abc.Sequence.index(self, value, start, stop)` with both bounds given.
After normalisation the start is non-negative, so at most `len + 1` positions are looked at. -/
def seqIndex (r : Range) (v start stop : Int) : PyM Int :=
  let start := if start < 0 then max ((r.len : Int) + start) 0 else start
  let stop := if stop < 0 then stop + r.len else stop
  seqIndexLoop r v stop (r.len + 1) start

/-- `Range.index(value, start, stop)`, _range.py:168-177: missing bounds are filled with the
*values* `_range.start` / `_range.stop` and then used as positions. -/
def index (r : Range) (v : Int) (start stop : Option Int) : PyM Int :=
  match start, stop with
  | none, none => r.rng.index v
  | _, _ => r.seqIndex v (start.getD r.rng.start) (stop.getD r.rng.stop)

/-- `copy.copy(Range)` / `copy.deepcopy(Range)`, _range.py:179-183. -/
def copy (r : Range) : PyM Range := fromRange r.rng

/-- Ranges that the constructors can produce: the stored step is 1 or -1. -/
def Valid (r : Range) : Prop := r.rng.step = 1 ∨ r.rng.step = -1

end Range
end Verif
