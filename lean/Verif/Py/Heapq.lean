/-!
CPython's `heapq` (Lib/heapq.py: `heappush`, `heappop`, `_siftdown`, `_siftup`; the C version runs
the same comparisons in the same order). Not part of the repository: modelled because
`PriorityQueue` (src/cocotb/queue.py 236-260) is built on it. `lt` is the items' `<`.
-/

namespace Verif.Py.Heapq

variable {α : Type}

/-- The loop of `_siftdown(heap, 0, pos)`; `newitem` is what will be stored. Callers pass
`startpos = 0` only. -/
def siftdown (lt : α → α → Bool) (newitem : α) (pos : Nat) (heap : List α) : List α :=
  if _h : pos > 0 then
    match heap[(pos - 1) / 2]? with
    | some parent =>
      if lt newitem parent then siftdown lt newitem ((pos - 1) / 2) (heap.set pos parent)
      else heap.set pos newitem
    | none => heap
  else heap.set pos newitem
termination_by pos
decreasing_by omega

/-- `heappush`. -/
def heappush (lt : α → α → Bool) (heap : List α) (item : α) : List α :=
  siftdown lt item heap.length (heap ++ [item])

/-- The choice of the smaller child in `_siftup`. -/
def childOf (lt : α → α → Bool) (heap : List α) (childpos : Nat) : Nat :=
  match heap[childpos]?, heap[childpos + 1]? with
  | some l, some r => if lt l r then childpos else childpos + 1
  | _, _ => childpos

theorem childOf_ge (lt : α → α → Bool) (heap : List α) (c : Nat) : c ≤ childOf lt heap c := by
  unfold childOf
  split
  · split <;> omega
  · omega

theorem childOf_lt (lt : α → α → Bool) (heap : List α) (c : Nat) (h : c < heap.length) :
    childOf lt heap c < heap.length := by
  unfold childOf
  split
  · rename_i l r h1 h2
    split
    · exact h
    · exact (List.getElem?_eq_some_iff.1 h2).1
  · exact h

/-- The loop of `_siftup(heap, pos)`: move the smaller child up until a leaf is hit; gives the heap
and the final position. -/
def siftup (lt : α → α → Bool) (pos : Nat) (heap : List α) : List α × Nat :=
  if _h : 2 * pos + 1 < heap.length then
    let c := childOf lt heap (2 * pos + 1)
    match heap[c]? with
    | some x => siftup lt c (heap.set pos x)
    | none => (heap, pos)
  else (heap, pos)
termination_by heap.length - pos
decreasing_by
  have h1 := childOf_ge lt heap (2 * pos + 1)
  have h2 := childOf_lt lt heap (2 * pos + 1) _h
  simp only [List.length_set]
  omega

/-- `heappop`; `none` is `IndexError` on an empty heap. -/
def heappop (lt : α → α → Bool) (heap : List α) : Option (α × List α) :=
  match heap.getLast? with
  | none => none
  | some lastelt =>
    match heap.dropLast with
    | [] => some (lastelt, [])
    | returnitem :: rest =>
      let (h, pos) := siftup lt 0 (lastelt :: rest)
      some (returnitem, siftdown lt lastelt pos (h.set pos lastelt))

end Verif.Py.Heapq
