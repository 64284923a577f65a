import Verif.Lemmas.Range
/-!
# Properties of `Range` (C01, C02, C03)
-/
namespace Verif
open Spec Range

/-! ## C01 -/

/-- C01: iterating `Range(left, dir, right)` yields exactly the HDL sequence. -/
theorem C01_iter (l : Int) (d : Dir) (r : Int) : (mk3 l d r).items = rangeSeq l d r :=
  items_mk3 l d r

/-- C01: `len` is the number of items yielded. -/
theorem C01_len (l : Int) (d : Dir) (r : Int) :
    (mk3 l d r).len = (rangeSeq l d r).length ∧
    ((mk3 l d r).len : Int) =
      max 0 (match d with | .to => r - l + 1 | .downto => l - r + 1) := by
  refine ⟨(rangeSeq_length l d r).symm, ?_⟩
  cases d with
  | to => rw [len_to]; simp only; omega
  | downto => rw [len_downto]; simp only; omega

/-- C01: `r[i]` is Python list indexing of the yielded items (negative indexes count from the
end, `IndexError` outside). -/
theorem C01_getItem (l : Int) (d : Dir) (r i : Int) :
    (mk3 l d r).getItem i = pyListGet (rangeSeq l d r) i := by
  have hlen : (rangeSeq l d r).length = (mk3 l d r).rng.len := rangeSeq_length l d r
  unfold getItem PyRange.getItem pyListGet
  rw [hlen]
  cases hk : pyIndex (mk3 l d r).rng.len i with
  | none => rfl
  | some k =>
    have hlt : k < (mk3 l d r).len := by
      unfold pyIndex at hk
      split at hk
      · injection hk with hk; unfold len; omega
      · split at hk
        · injection hk with hk; unfold len; omega
        · cases hk
    simp only [rangeSeq_getElem? l d r k hlt]
    rfl

/-- C01: the explicit reading of indexing, including the error branch. -/
theorem C01_getItem_explicit (l : Int) (d : Dir) (r i : Int) :
    let n : Int := (mk3 l d r).len
    (mk3 l d r).getItem i =
      if 0 ≤ i ∧ i < n then .ok (rangeNth l d i)
      else if -n ≤ i ∧ i < 0 then .ok (rangeNth l d (n + i))
      else .error .indexError := by
  simp only
  have e : ∀ k : Int, (mk3 l d r).rng.start + k * (mk3 l d r).rng.step =
      rangeNth l d k := by
    intro k; cases d <;> simp [mk3, Dir.step, rangeNth]; omega
  unfold getItem PyRange.getItem pyIndex
  by_cases h1 : 0 ≤ i ∧ i < ((mk3 l d r).len : Int)
  · have h1' : 0 ≤ i ∧ i < ((mk3 l d r).rng.len : Int) := h1
    rw [if_pos h1, if_pos h1']
    simp only
    rw [e]
    rw [Int.toNat_of_nonneg h1.1]
  · have h1' : ¬ (0 ≤ i ∧ i < ((mk3 l d r).rng.len : Int)) := h1
    rw [if_neg h1, if_neg h1']
    by_cases h2 : -((mk3 l d r).len : Int) ≤ i ∧ i < 0
    · have h2' : i < 0 ∧ 0 ≤ i + ((mk3 l d r).rng.len : Int) := by
        unfold len at h2; omega
      rw [if_pos h2, if_pos h2']
      simp only
      rw [e]
      rw [Int.toNat_of_nonneg h2'.2, Int.add_comm]; rfl
    · have h2' : ¬ (i < 0 ∧ 0 ≤ i + ((mk3 l d r).rng.len : Int)) := by
        unfold len at h2; omega
      rw [if_neg h2, if_neg h2']

/-- C01: membership is exactly "is one of the yielded items", i.e. lies between the bounds. -/
theorem C01_contains (l : Int) (d : Dir) (r v : Int) :
    ((mk3 l d r).contains v = true ↔ v ∈ rangeSeq l d r) ∧
    (v ∈ rangeSeq l d r ↔ between l d r v) :=
  ⟨(contains_mk3 l d r v).trans (mem_rangeSeq l d r v).symm, mem_rangeSeq l d r v⟩

/-- C01: `reversed` yields the items in reverse order. -/
theorem C01_reversed (l : Int) (d : Dir) (r : Int) :
    (mk3 l d r).reversedItems = (rangeSeq l d r).reverse := by
  by_cases h0 : (mk3 l d r).len = 0
  · have hs : rangeSeq l d r = [] := by
      apply List.eq_nil_of_length_eq_zero; rw [rangeSeq_length, h0]
    rw [hs]
    simp only [reversedItems, PyRange.items, List.reverse_nil, List.map_eq_nil_iff,
      List.range_eq_nil]
    have h0' : (mk3 l d r).rng.len = 0 := h0
    unfold PyRange.reversed
    rw [h0']
    cases d <;> simp [mk3, PyRange.len, Dir.step] <;> omega
  · apply List.ext_getElem?
    intro k
    have key : (mk3 l d r).rng.reversed =
        (mk3 (l + (((mk3 l d r).len : Int) - 1) * d.step)
          d.flip l).rng := by
      cases d <;> simp [PyRange.reversed, mk3, Dir.step, len, Dir.flip] <;> omega
    have hlen2 : (mk3 (l + (((mk3 l d r).len : Int) - 1) * d.step)
          d.flip l).len = (mk3 l d r).len := by
      cases d with
      | to => simp only [Dir.flip]; rw [len_downto]; simp only [Dir.step]; omega
      | downto => simp only [Dir.flip]; rw [len_to]; simp only [Dir.step]; omega
    have h1 : (mk3 l d r).reversedItems = rangeSeq (l + (((mk3 l d r).len : Int) - 1) * d.step)
          d.flip l := by
      unfold reversedItems; rw [key]; exact items_mk3 _ _ _
    rw [h1]
    by_cases hk : k < (mk3 l d r).len
    · rw [rangeSeq_getElem? _ _ _ _ (by rw [hlen2]; exact hk)]
      rw [List.getElem?_reverse (by rw [rangeSeq_length]; exact hk), rangeSeq_length,
        rangeSeq_getElem? _ _ _ _ (by omega)]
      cases d <;> simp [Dir.step, Dir.flip] <;> omega
    · rw [List.getElem?_eq_none (by rw [rangeSeq_length, hlen2]; omega),
        List.getElem?_eq_none (by rw [List.length_reverse, rangeSeq_length]; omega)]

example : (mk3 3 .downto (-2)).items = [3, 2, 1, 0, -1, -2] ∧
    (mk3 3 .downto (-2)).getItem (-1) = .ok (-2) ∧ (mk3 1 .to 0).items = [] := by decide

/-! ## C02 -/

/-- C02: `index` is the inverse of indexing, and raises `ValueError` exactly for absent values. -/
theorem C02_index (l : Int) (d : Dir) (r v : Int) :
    (v ∈ rangeSeq l d r → ∃ k : Nat, k < (rangeSeq l d r).length ∧
        (mk3 l d r).index v none none = .ok k ∧ (rangeSeq l d r)[k]? = some v) ∧
    (v ∉ rangeSeq l d r → (mk3 l d r).index v none none = .error .valueError) := by
  constructor
  · intro hv
    have hc := (C01_contains l d r v).1.2 hv
    have hb := (mem_rangeSeq l d r v).1 hv
    rw [index_mk3, if_pos hc]
    cases d with
    | to =>
      simp only [between] at hb
      refine ⟨(v - l).toNat, ?_, ?_, ?_⟩
      · rw [rangeSeq_length, len_to]; omega
      · simp; omega
      · rw [rangeSeq_getElem? _ _ _ _ (by rw [len_to]; omega)]; simp [Dir.step]; omega
    | downto =>
      simp only [between] at hb
      refine ⟨(l - v).toNat, ?_, ?_, ?_⟩
      · rw [rangeSeq_length, len_downto]; omega
      · simp; omega
      · rw [rangeSeq_getElem? _ _ _ _ (by rw [len_downto]; omega)]; simp [Dir.step]; omega
  · intro hv
    have hc : ¬ (mk3 l d r).contains v = true := fun h => hv ((C01_contains l d r v).1.1 h)
    rw [index_mk3, if_neg hc]

/-- C02: `index (r[k]) = k` for every position. -/
theorem C02_index_getItem (l : Int) (d : Dir) (r : Int) (k : Nat)
    (hk : k < (rangeSeq l d r).length) (v : Int) (hv : (mk3 l d r).getItem k = .ok v) :
    (mk3 l d r).index v none none = .ok k := by
  rw [C01_getItem_explicit] at hv
  rw [rangeSeq_length] at hk
  rw [if_pos (by omega)] at hv
  have hvk : v = rangeNth l d k := by
    injection hv with hv; exact hv.symm
  have hc : (mk3 l d r).contains v = true := by
    rw [contains_mk3]
    cases d with
    | to => rw [len_to] at hk; simp only [between]; simp only [rangeNth] at hvk; omega
    | downto => rw [len_downto] at hk; simp only [between]; simp only [rangeNth] at hvk; omega
  rw [index_mk3, if_pos hc]
  cases d <;> simp only [rangeNth] at hvk <;> simp <;> omega

example : (2 : Int) ∈ rangeSeq 5 .downto 0 ∧ (mk3 5 .downto 0).index 2 none none = .ok 3 := by
  decide

/-- The bounded search of the Python sequence protocol on the list of items: the first position
`i` with `start ≤ i < stop` and item `v`; a missing bound means the end of the sequence and
negative bounds count from the end. -/
def Spec.boundedIndex (l : List Int) (v : Int) (start stop : Option Int) : PyM Int :=
  let n : Int := l.length
  let s : Int := match start with | none => 0 | some x => if x < 0 then max (n + x) 0 else x
  let e : Int := match stop with | none => n | some x => if x < 0 then x + n else x
  match l.findIdx? (fun x => x == v) with
  | some k => if s ≤ k ∧ (k : Int) < e then .ok k else .error .valueError
  | none => .error .valueError

theorem seqIndexLoop_spec (l : Int) (d : Dir) (r v stop : Int) (n : Nat) (i : Nat)
    (hn : (mk3 l d r).len < i + n) :
    seqIndexLoop (mk3 l d r) v stop n i =
      (if (mk3 l d r).contains v ∧
          (i : Int) ≤ (if d = .to then v - l else l - v) ∧ (if d = .to then v - l else l - v) < stop
       then .ok (if d = .to then v - l else l - v) else .error .valueError) := by
  induction n generalizing i with
  | zero =>
    unfold seqIndexLoop
    rw [if_neg]
    rintro ⟨hc, h1, _⟩
    have hb := (contains_mk3 l d r v).1 hc
    cases d with
    | to => rw [len_to] at hn; simp [between] at hb h1; omega
    | downto => rw [len_downto] at hn; simp [between] at hb h1; omega
  | succ n ih =>
    unfold seqIndexLoop
    rw [C01_getItem_explicit]
    by_cases hstop : (i : Int) < stop
    · rw [if_pos hstop]
      by_cases hi : i < (mk3 l d r).len
      · rw [if_pos (show (0:Int) ≤ i ∧ (i:Int) < (mk3 l d r).len by omega)]
        simp only
        by_cases he : rangeNth l d i = v
        · rw [if_pos he]
          have hv : (i : Int) = (if d = .to then v - l else l - v) := by
            cases d <;> simp [rangeNth] at he ⊢ <;> omega
          rw [if_pos]
          · rw [← hv]
          · refine ⟨?_, by omega, by omega⟩
            rw [contains_mk3]
            cases d with
            | to => rw [len_to] at hi; simp [between, rangeNth] at he ⊢; omega
            | downto => rw [len_downto] at hi; simp [between, rangeNth] at he ⊢; omega
        · rw [if_neg he]
          have := ih (i + 1) (by omega)
          rw [show ((i + 1 : Nat) : Int) = (i : Int) + 1 by omega] at this
          rw [this]
          have hv : (i : Int) ≠ (if d = .to then v - l else l - v) := by
            intro h; apply he; cases d <;> simp [rangeNth] at h ⊢ <;> omega
          by_cases hc : (mk3 l d r).contains v ∧
              (i : Int) + 1 ≤ (if d = .to then v - l else l - v) ∧
              (if d = .to then v - l else l - v) < stop
          · have hc' : (mk3 l d r).contains v ∧ (i : Int) ≤ (if d = .to then v - l else l - v) ∧
                (if d = .to then v - l else l - v) < stop := ⟨hc.1, by omega, hc.2.2⟩
            rw [if_pos hc, if_pos hc']
          · rw [if_neg hc, if_neg]
            rintro ⟨h1, h2, h3⟩
            exact hc ⟨h1, by omega, h3⟩
      · rw [if_neg (by omega), if_neg (by omega)]
        simp only
        rw [if_neg]
        rintro ⟨hc, h1, _⟩
        have hb := (contains_mk3 l d r v).1 hc
        cases d with
        | to => rw [len_to] at hi; simp [between] at hb h1; omega
        | downto => rw [len_downto] at hi; simp [between] at hb h1; omega
    · rw [if_neg hstop, if_neg]
      rintro ⟨_, h1, h2⟩
      omega

/-- Position of `v` in the item list. -/
theorem findIdx_rangeSeq (l : Int) (d : Dir) (r v : Int) :
    (rangeSeq l d r).findIdx? (fun x => x == v) =
      if (mk3 l d r).contains v then some (if d = .to then v - l else l - v).toNat else none := by
  by_cases hc : (mk3 l d r).contains v = true
  · rw [if_pos hc]
    have hb := (contains_mk3 l d r v).1 hc
    rw [List.findIdx?_eq_some_iff_getElem]
    cases d with
    | to =>
      simp only [between] at hb
      refine ⟨by rw [rangeSeq_length, len_to]; simp; omega, ?_, ?_⟩
      · simp [rangeSeq]; omega
      · intro j hj; simp [rangeSeq] at hj ⊢; omega
    | downto =>
      simp only [between] at hb
      refine ⟨by rw [rangeSeq_length, len_downto]; simp; omega, ?_, ?_⟩
      · simp [rangeSeq]; omega
      · intro j hj; simp [rangeSeq] at hj ⊢; omega
  · rw [if_neg hc]
    rw [List.findIdx?_eq_none_iff]
    intro x hx
    simp only [beq_eq_false_iff_ne]
    rintro rfl
    exact hc ((C01_contains l d r x).1.2 hx)

/-- C02 (partial): the bounded form is correct when *both* bounds are given. The full statement
(either bound may be missing) is `C02_bounded_full`, which is false of the code: see
`C02_bounded_counterexample`. -/
theorem C02_bounded_partial (l : Int) (d : Dir) (r v start stop : Int) :
    (mk3 l d r).index v (some start) (some stop) =
      Spec.boundedIndex (rangeSeq l d r) v (some start) (some stop) := by
  have e1 : (mk3 l d r).index v (some start) (some stop) = (mk3 l d r).seqIndex v start stop := rfl
  rw [e1]
  unfold seqIndex Spec.boundedIndex
  simp only [findIdx_rangeSeq, rangeSeq_length]
  generalize hs : (if start < 0 then max (((mk3 l d r).len : Int) + start) 0 else start) = s
  generalize (if stop < 0 then stop + ((mk3 l d r).len : Int) else stop) = e
  have hs0 : 0 ≤ s := by rw [← hs]; split <;> omega
  obtain ⟨n, rfl⟩ := Int.eq_ofNat_of_zero_le hs0
  rw [seqIndexLoop_spec _ _ _ _ _ _ _ (by omega)]
  by_cases hc : (mk3 l d r).contains v = true
  · rw [if_pos hc]
    have hb := (contains_mk3 l d r v).1 hc
    have hp : 0 ≤ (if d = .to then v - l else l - v) := by
      cases d <;> simp [between] at hb ⊢ <;> omega
    simp only [hc, true_and]
    rw [Int.toNat_of_nonneg hp]
  · rw [if_neg hc, if_neg (by rintro ⟨h, _⟩; exact hc h)]

/-- C02: the full statement of the bounded search (any subset of the bounds may be missing). -/
def C02_bounded_full : Prop :=
  ∀ (l : Int) (d : Dir) (r v : Int) (start stop : Option Int),
    (mk3 l d r).index v start stop = Spec.boundedIndex (rangeSeq l d r) v start stop

/-- C02: the code violates the full statement: `Range(5,'to',8).index(6, None, 3)` raises although
6 is at position 1 (a missing *start* is replaced by the first *value*, 5). -/
theorem C02_bounded_counterexample : ¬ C02_bounded_full := by
  intro h
  have := h 5 .to 8 6 none (some 3)
  revert this
  decide

/-! ## C03 -/

/-- C03: the two-argument form is never null and runs from `left` to `right`. -/
theorem C03_two_arg (l r : Int) :
    0 < (mk2 l r).len ∧ (mk2 l r).left = l ∧ (mk2 l r).right = r ∧
    mk2 l r = mk3 l (if l ≤ r then .to else .downto) r := by
  have h : mk2 l r = mk3 l (if l ≤ r then .to else .downto) r := by
    unfold mk2 guessStep; split <;> simp [mk3, Dir.step]
  refine ⟨?_, ?_, ?_, h⟩
  · rw [h]; split
    · rw [len_to]; omega
    · rw [len_downto]; omega
  · rw [h]; simp
  · rw [h]; simp

/-- C03: a `Range` reports the bounds and direction it was built from; any other direction word
is rejected. -/
theorem C03_bounds (l : Int) (d : Dir) (r : Int) :
    (mk3 l d r).left = l ∧ (mk3 l d r).right = r ∧ (mk3 l d r).direction = .ok d := by simp

/-- C03: the direction argument accepts exactly the words to/downto in any letter case. -/
theorem C03_direction_words (l r : Int) (s : String) :
    (s.toLower = "to" → mkStr l s r = .ok (mk3 l .to r)) ∧
    (s.toLower = "downto" → mkStr l s r = .ok (mk3 l .downto r)) ∧
    (s.toLower ≠ "to" → s.toLower ≠ "downto" → mkStr l s r = .error .valueError) := by
  refine ⟨?_, ?_, ?_⟩ <;> intros <;> simp_all [mkStr, Dir.parse]

/-- C03: converting to a Python range and back, and copying, are the identity on every
constructible `Range`; `from_range` accepts exactly the Python ranges with step 1 or -1 and
keeps their items. -/
theorem C03_roundtrip (r : Range) (h : r.Valid) :
    fromRange r.toRange = .ok r ∧ r.copy = .ok r := ⟨fromRange_ok h, fromRange_ok h⟩

theorem C03_fromRange (p : PyRange) :
    (p.step = 1 ∨ p.step = -1 → ∃ r, fromRange p = .ok r ∧ r.toRange = p ∧ r.items = p.items) ∧
    (¬ (p.step = 1 ∨ p.step = -1) → fromRange p = .error .valueError) :=
  ⟨fun h => ⟨⟨p⟩, fromRange_ok h, rfl, rfl⟩, fromRange_err⟩

/-- C03: equality is equality of the yielded sequences, and equal ranges hash alike. -/
theorem C03_eq (l : Int) (d : Dir) (r l' : Int) (d' : Dir) (r' : Int) :
    ((mk3 l d r).beq (mk3 l' d' r') = true ↔ rangeSeq l d r = rangeSeq l' d' r') ∧
    ((mk3 l d r).beq (mk3 l' d' r') = true →
      (mk3 l d r).hashKey = (mk3 l' d' r').hashKey) := by
  have hA : (mk3 l d r).rng.len = (mk3 l d r).len := rfl
  have hB : (mk3 l' d' r').rng.len = (mk3 l' d' r').len := rfl
  have sA : (mk3 l d r).rng.start = l := rfl
  have sB : (mk3 l' d' r').rng.start = l' := rfl
  have tA : (mk3 l d r).rng.step = d.step := rfl
  have tB : (mk3 l' d' r').rng.step = d'.step := rfl
  constructor
  · unfold beq PyRange.beq
    rw [hA, hB, sA, sB, tA, tB]
    constructor
    · intro h
      split at h
      · cases h
      · rename_i hlen
        have hlen' : (mk3 l d r).len = (mk3 l' d' r').len := by simpa using hlen
        apply List.ext_getElem?
        intro k
        by_cases hk : k < (mk3 l d r).len
        · rw [rangeSeq_getElem? _ _ _ _ hk, rangeSeq_getElem? _ _ _ _ (by omega)]
          split at h
          · omega
          · split at h
            · cases h
            · rename_i hs
              have hs' : l = l' := by simpa using hs
              split at h
              · have : k = 0 := by omega
                subst this; simp [hs']
              · have : d.step = d'.step := by simpa using h
                rw [hs', this]
        · rw [List.getElem?_eq_none (by rw [rangeSeq_length]; omega),
            List.getElem?_eq_none (by rw [rangeSeq_length]; omega)]
    · intro h
      have hlen : (mk3 l d r).len = (mk3 l' d' r').len := by
        rw [← rangeSeq_length, ← rangeSeq_length, h]
      rw [if_neg (by simp [hlen])]
      by_cases h0 : (mk3 l d r).len = 0
      · rw [if_pos h0]
      · rw [if_neg h0]
        have g0 := congrArg (fun x => x[0]?) h
        simp only [rangeSeq_getElem? l d r 0 (by omega),
          rangeSeq_getElem? l' d' r' 0 (by omega)] at g0
        have hl : l = l' := by simpa using g0
        rw [if_neg (by simp [hl])]
        by_cases h1 : (mk3 l d r).len = 1
        · rw [if_pos h1]
        · rw [if_neg h1]
          have g1 := congrArg (fun x => x[1]?) h
          simp only [rangeSeq_getElem? l d r 1 (by omega),
            rangeSeq_getElem? l' d' r' 1 (by omega)] at g1
          simp at g1 ⊢
          omega
  · unfold beq PyRange.beq hashKey PyRange.hashKey
    rw [hA, hB, sA, sB, tA, tB]
    intro h
    split at h
    · cases h
    · rename_i hlen
      have hlen' : (mk3 l d r).len = (mk3 l' d' r').len := by simpa using hlen
      rw [hlen'] at h ⊢
      split at h
      · rename_i h0; simp [h0]
      · split at h
        · cases h
        · rename_i h0 hs
          have hs' : l = l' := by simpa using hs
          split at h
          · rename_i h1; simp [h1, hs']
          · rename_i h1
            have : d.step = d'.step := by simpa using h
            simp [h0, h1, hs', this]

example : (mk3 4 .to 4).beq (mk3 4 .downto 4) = true ∧ (mk3 0 .to 3).beq (mk3 3 .downto 0) = false ∧
    (mk3 7 .to 3).beq (mk3 0 .downto 1) = true := by decide

theorem filterMap_congr' {α β : Type} {f g : α → Option β} {l : List α}
    (h : ∀ a ∈ l, f a = g a) : l.filterMap f = l.filterMap g := by
  induction l with
  | nil => rfl
  | cons a l ih =>
    simp only [List.filterMap_cons, h a (by simp), ih (fun x hx => h x (by simp [hx]))]

theorem items_unit_map (a b : Int) (st c s : Int) (hst : st = 1 ∨ st = -1) (hs : s = 1 ∨ s = -1) :
    (PyRange.items ⟨a, b, st⟩).map (fun i => c + i * s) =
      PyRange.items ⟨c + a * s, c + b * s, st * s⟩ := by
  have hl : PyRange.len ⟨c + a * s, c + b * s, st * s⟩ = PyRange.len ⟨a, b, st⟩ := by
    rcases hst with rfl | rfl <;> rcases hs with rfl | rfl <;> simp [PyRange.len] <;>
      split <;> omega
  unfold PyRange.items
  rw [hl, List.map_map]
  apply List.map_congr_left
  intro i _
  simp only [Function.comp]
  rcases hst with rfl | rfl <;> rcases hs with rfl | rfl <;> simp <;> omega

theorem indices_bounds {s : PySlice} {n : Nat} {a b st : Int} (h : s.indices n = .ok (a, b, st))
    (hst : st = 1 ∨ st = -1) : ∀ i ∈ PyRange.items ⟨a, b, st⟩, 0 ≤ i ∧ i < (n : Int) := by
  have hstep : st = s.step.getD 1 := by
    unfold PySlice.indices at h
    simp only at h
    split at h
    · cases h
    · injection h with h; injection h with _ h; injection h with _ h; exact h.symm
  intro i hi
  unfold PyRange.items at hi
  simp only [List.mem_map, List.mem_range] at hi
  obtain ⟨k, hk, rfl⟩ := hi
  unfold PySlice.indices at h
  simp only [← hstep] at h
  rcases hst with rfl | rfl
  · simp [PyRange.len] at hk
    simp at h
    obtain ⟨h1, h2⟩ := h
    split at hk
    · have ha : 0 ≤ a := by
        rw [← h1]; cases s.start <;> simp [PySlice.adjust]; split <;> split <;> omega
      have hb : b ≤ n := by
        rw [← h2]; cases s.stop <;> simp [PySlice.adjust]; split <;> split <;> omega
      omega
    · omega
  · simp [PyRange.len] at hk
    simp at h
    obtain ⟨h1, h2⟩ := h
    split at hk
    · have ha : a ≤ n - 1 := by
        rw [← h1]; cases s.start <;> simp [PySlice.adjust]; split <;> split <;> omega
      have hb : -1 ≤ b := by
        rw [← h2]; cases s.stop <;> simp [PySlice.adjust]; split <;> split <;> omega
      omega
    · omega

/-- C03: slicing a `Range` with step 1, -1 or none selects exactly the items Python list slicing
selects from the item list. -/
theorem C03_slice (l : Int) (d : Dir) (r : Int) (s : PySlice)
    (hs : s.step = none ∨ s.step = some 1 ∨ s.step = some (-1)) :
    ∃ r' xs, (mk3 l d r).getSlice s = .ok r' ∧ pyListSlice (rangeSeq l d r) s = .ok xs ∧
      r'.Valid ∧ r'.items = xs := by
  have hst : s.step.getD 1 = 1 ∨ s.step.getD 1 = -1 := by
    rcases hs with h | h | h <;> simp [h]
  obtain ⟨a, b, hind⟩ : ∃ a b, s.indices (mk3 l d r).rng.len = .ok (a, b, s.step.getD 1) := by
    unfold PySlice.indices
    simp only
    rw [if_neg (by omega)]
    exact ⟨_, _, rfl⟩
  have hdst : d.step = 1 ∨ d.step = -1 := by cases d <;> simp [Dir.step]
  have hprod : s.step.getD 1 * d.step = 1 ∨ s.step.getD 1 * d.step = -1 := by
    rcases hst with h | h <;> rcases hdst with h' | h' <;> rw [h, h'] <;> simp
  refine ⟨⟨⟨l + a * d.step, l + b * d.step, s.step.getD 1 * d.step⟩⟩, _, ?_, ?_, hprod, rfl⟩
  · unfold getSlice PyRange.getSlice
    rw [hind]
    exact fromRange_ok hprod
  · unfold pyListSlice
    have : (rangeSeq l d r).length = (mk3 l d r).rng.len := rangeSeq_length l d r
    rw [this, hind]
    simp only [Except.ok.injEq]
    show _ = PyRange.items ⟨l + a * d.step, l + b * d.step, s.step.getD 1 * d.step⟩
    rw [← items_unit_map a b _ l d.step hst hdst]
    rw [← List.filterMap_eq_map]
    apply filterMap_congr'
    intro i hi
    have hb := indices_bounds hind hst i hi
    have hlt : i.toNat < (mk3 l d r).len := by unfold len; omega
    rw [rangeSeq_getElem? l d r i.toNat hlt]
    simp only [Function.comp]
    rw [Int.toNat_of_nonneg hb.1]

/-- C03: any other slice step is rejected with `ValueError` (also when nothing is selected). -/
theorem C03_slice_error (l : Int) (d : Dir) (r : Int) (s : PySlice) (k : Int)
    (hs : s.step = some k) (h1 : k ≠ 1) (h2 : k ≠ -1) :
    (mk3 l d r).getSlice s = .error .valueError := by
  have hstep : s.step.getD 1 = k := by simp [hs]
  unfold getSlice PyRange.getSlice PySlice.indices
  simp only [hstep]
  by_cases h0 : k = 0
  · rw [if_pos h0]
  · rw [if_neg h0]
    simp only
    apply fromRange_err
    have hd : (mk3 l d r).rng.step = d.step := rfl
    simp only [hd]
    cases d <;> simp [Dir.step] <;> omega

example : (mk3 7 .downto 0).getSlice ⟨some 2, some 5, none⟩ = .ok (mk3 5 .downto 3) ∧
    (mk3 7 .downto 0).getSlice ⟨none, none, some (-1)⟩ = .ok (mk3 0 .to 7) := by decide

end Verif
