import Verif.Lemmas.Array
/-!
# Properties of `Array`: read/write laws (C17), construction and search (C21)
-/
namespace Verif
open Spec

variable {α : Type}

/-! ## C21: construction -/

/-- C21: without a range the indices are `0 to len-1`; with one, the length must match. -/
theorem C21_new (vs : List α) :
    Arr.new vs .none = .ok ⟨vs, .mk3 0 .to (vs.length - 1), false⟩ ∧
    (∀ n : Int, Arr.new vs (.int n) =
      if (vs.length : Int) = max n 0 then .ok ⟨vs, .mk3 0 .to (n - 1), false⟩ else .error .valueError) ∧
    (∀ r, Arr.new vs (.range r) =
      if vs.length = r.len then .ok ⟨vs, r, false⟩ else .error .valueError) ∧
    Arr.new vs .other = .error .typeError := by
  refine ⟨rfl, ?_, ?_, rfl⟩
  · intro n
    simp only [Arr.new, Range.len_to]
    by_cases h : (vs.length : Int) = max n 0
    · rw [if_pos h, if_neg]; omega
    · rw [if_neg h, if_pos]; omega
  · intro r
    by_cases h : vs.length = r.len <;> simp [Arr.new, h]

/-- C21: every constructed array is well formed and iterates over the given elements. -/
theorem C21_new_wf (vs : List α) (ra : RangeArg) (a : Arr α)
    (hv : ∀ r, ra = .range r → r.Valid) (h : Arr.new vs ra = .ok a) :
    ArrWF a ∧ a.iter = vs ∧ a.reversed = vs.reverse ∧ a.len = vs.length := by
  have key : ArrWF a ∧ a.value = vs := by
    cases ra with
    | none =>
      simp [Arr.new] at h; subst h
      refine ⟨⟨?_, Range.valid_mk3 _ _ _⟩, rfl⟩
      simp only [Range.len_to]; omega
    | int n =>
      simp only [Arr.new] at h
      split at h
      · simp at h
      · rename_i hl; simp at h hl; subst h; exact ⟨⟨hl, Range.valid_mk3 _ _ _⟩, rfl⟩
    | range r =>
      simp only [Arr.new] at h
      split at h
      · simp at h
      · rename_i hl; simp at h hl; subst h; exact ⟨⟨hl, hv r rfl⟩, rfl⟩
    | other => simp [Arr.new] at h
  obtain ⟨h1, h2⟩ := key
  exact ⟨h1, h2, by simp [Arr.reversed, h2], by simp [Arr.len, ← h1.1, h2]⟩

example : ∃ a, Arr.new [10, 20, 30] (.range (.mk3 5 .downto 3)) = .ok a ∧ a.len = 3 := ⟨_, rfl, rfl⟩

/-- C21: equality ignores ranges and compares elements in order. -/
theorem C21_eq [DecidableEq α] (a b : Arr α) : (a.beq b = true ↔ a.iter = b.iter) ∧
    (∀ l, a.beqList l = true ↔ a.iter = l) := by
  simp [Arr.beq, Arr.beqList, Arr.iter]

/-- C21: changing the range succeeds exactly for equal lengths and keeps the elements. -/
theorem C21_setRange (a : Arr α) (h : ArrWF a) (r : Range) (hr : r.Valid) :
    (r.len ≠ a.len → a.setRange r = .error .valueError) ∧
    (r.len = a.len → ∃ b, a.setRange r = .ok b ∧ ArrWF b ∧ b.iter = a.iter ∧ b.range = r) := by
  constructor
  · intro hn; simp [Arr.setRange, hn]
  · intro he
    refine ⟨{ a with range := r }, by simp [Arr.setRange, he], ⟨?_, hr⟩, rfl, rfl⟩
    show a.value.length = r.len
    rw [h.1, he]; rfl

/-! ## C17 for `Array` -/

/-- C17: reading index `i` gives the element at that index, and raises `IndexError` for every index
outside the range (negative indices are literal). -/
theorem C17_array_get (a : Arr α) (h : ArrWF a) (hw : a.warn = false) (L R : Int) (d : Dir)
    (hr : a.range = .mk3 L d R) (i : Int) :
    (∀ v, a.getItem i = .ok v ↔ arrAt L d a.iter i = some v) ∧
    (between L d R i → ∃ v, a.getItem i = .ok v) ∧
    (¬ between L d R i → a.getItem i = .error .indexError) := by
  have hg := Arr.getItem_pos a L d R i hr h.1 hw
  have hl := h.1
  rw [hr] at hl
  refine ⟨?_, ?_, ?_⟩
  · intro v
    rw [hg]
    show _ ↔ arrAt L d a.value i = some v
    cases arrAt L d a.value i <;> simp
  · intro hb
    rw [between_iff_pos] at hb
    have : (posOf L d i).toNat < a.value.length := by omega
    exact ⟨a.value[(posOf L d i).toNat], by rw [hg]; simp [arrAt, hb.1, List.getElem?_eq_getElem this]⟩
  · intro hb
    rw [between_iff_pos] at hb
    rw [hg]
    by_cases h0 : 0 ≤ posOf L d i
    · have : a.value.length ≤ (posOf L d i).toNat := by omega
      simp [arrAt, h0, List.getElem?_eq_none this]
    · simp [arrAt, h0]

/-- C17: writing one index. It succeeds exactly inside the range; afterwards that index reads the new
value, every other index is unchanged, and so are range and length. -/
theorem C17_array_set (a : Arr α) (h : ArrWF a) (hw : a.warn = false) (L R : Int) (d : Dir)
    (hr : a.range = .mk3 L d R) (i : Int) (v : α) :
    (¬ between L d R i → a.setItem i v = .error .indexError) ∧
    (between L d R i → ∃ b, a.setItem i v = .ok b ∧ ArrWF b ∧ b.range = a.range ∧ b.warn = false ∧
      b.getItem i = .ok v ∧ ∀ j, j ≠ i → b.getItem j = a.getItem j) := by
  have hl := h.1
  constructor
  · intro hb
    rcases Arr.translate_pos a L d R i hr with ⟨_, h2⟩ | ⟨h1, _⟩
    · exact absurd h2 hb
    · simp [Arr.setItem, h1, bind, Except.bind]
  · intro hb
    have hb' := (between_iff_pos L d R i).1 hb
    rw [hr] at hl
    have hk : posOf L d i < a.value.length := by omega
    rcases Arr.translate_pos a L d R i hr with ⟨h1, _⟩ | ⟨_, h2⟩
    · have hset : a.setItem i v = .ok { a with value := a.value.set (posOf L d i).toNat v } := by
        simp [Arr.setItem, h1, bind, Except.bind, pyListSet, pyIndex_nonneg hb'.1 hk]
      have hlen : (a.value.set (posOf L d i).toNat v).length = a.range.len := by
        rw [List.length_set, hr]; exact hl
      refine ⟨_, hset, ⟨hlen, h.2⟩, rfl, hw, ?_, ?_⟩
      · rw [Arr.getItem_pos { a with value := a.value.set (posOf L d i).toNat v } L d R i hr hlen hw]
        have : (posOf L d i).toNat < a.value.length := by omega
        simp [arrAt, hb'.1, this]
      · intro j hj
        rw [Arr.getItem_pos { a with value := a.value.set (posOf L d i).toNat v } L d R j hr hlen hw,
          Arr.getItem_pos a L d R j hr h.1 hw]
        have : arrAt L d (a.value.set (posOf L d i).toNat v) j = arrAt L d a.value j := by
          unfold arrAt
          by_cases h0 : 0 ≤ posOf L d j
          · simp only [h0, if_true]
            rw [List.getElem?_set_ne]
            intro he
            exact hj (posOf_inj (l := L) (d := d) (by omega))
          · simp [h0]
        simp only [this]
    · exact absurd hb h2

/-- C17: reading a slice: legal exactly for in-order bounds inside the range without a step;
the result has the slice bounds as range, in the array's direction, and index `k` of it is index `k`
of the array. Missing bounds mean the array's own bounds. -/
theorem C17_array_getSlice (a : Arr α) (h : ArrWF a) (hw : a.warn = false) (L R : Int) (d : Dir)
    (hr : a.range = .mk3 L d R) (s : PySlice) :
    (¬ (s.step = none ∧ sliceOk L d R (s.start.getD L) (s.stop.getD R)) →
      a.getSlice s = .error .indexError) ∧
    (s.step = none ∧ sliceOk L d R (s.start.getD L) (s.stop.getD R) →
      ∃ b, a.getSlice s = .ok b ∧ ArrWF b ∧ b.range = .mk3 (s.start.getD L) d (s.stop.getD R) ∧
        b.warn = false ∧
        ∀ k, between (s.start.getD L) d (s.stop.getD R) k → b.getItem k = a.getItem k) := by
  rcases Arr.sliceBounds_pos a L d R s hr with ⟨h1, h2, h3⟩ | ⟨h1, h2⟩
  · refine ⟨fun hn => absurd ⟨h2, h3⟩ hn, fun _ => ?_⟩
    obtain ⟨b1, b2, b3⟩ := h3
    generalize s.start.getD L = st at *
    generalize s.stop.getD R = sp at *
    rw [between_iff_pos] at b1 b2
    have hl := h.1
    rw [hr] at hl
    have hlo : sliceLo a.value.length (posOf L d st) = (posOf L d st).toNat :=
      sliceLo_nonneg b1.1 (by omega)
    have hhi : sliceLo a.value.length (posOf L d sp + 1) = (posOf L d sp + 1).toNat :=
      sliceLo_nonneg (by omega) (by omega)
    have hval : (pyListGetSlice a.value (posOf L d st) (posOf L d sp + 1)).length =
        (Range.mk3 st d sp).len := by
      have := len_mk3 st d sp
      simp only [pyListGetSlice, hlo, hhi, List.length_take, List.length_drop]
      have e : posOf st d sp = posOf L d sp - posOf L d st := by
        cases d <;> simp only [posOf] <;> omega
      omega
    have hres : a.getSlice s = .ok ⟨pyListGetSlice a.value (posOf L d st) (posOf L d sp + 1),
        .mk3 st d sp, false⟩ := by
      simp [Arr.getSlice, Arr.warnSlice, hw, h1, bind, Except.bind, hr, Arr.new, hval]
    refine ⟨_, hres, ⟨hval, Range.valid_mk3 _ _ _⟩, rfl, rfl, ?_⟩
    intro k hk
    rw [Arr.getItem_pos _ st d sp k rfl hval rfl, Arr.getItem_pos a L d R k hr h.1 hw]
    have hk' := (between_iff_pos st d sp k).1 hk
    have e : posOf st d sp = posOf L d sp - posOf L d st := by
      cases d <;> simp only [posOf] <;> omega
    have e2 : posOf st d k = posOf L d k - posOf L d st := by
      cases d <;> simp only [posOf] <;> omega
    have hm := len_mk3 st d sp
    have : arrAt st d (pyListGetSlice a.value (posOf L d st) (posOf L d sp + 1)) k =
        arrAt L d a.value k := by
      unfold arrAt
      have p0 : 0 ≤ posOf L d k := by omega
      simp only [hk'.1, p0, if_true, pyListGetSlice, hlo, hhi]
      rw [List.getElem?_take, if_pos (by omega), List.getElem?_drop]
      congr 1
      omega
    simp only [this]
  · refine ⟨fun _ => ?_, fun hp => absurd hp h2⟩
    simp [Arr.getSlice, Arr.warnSlice, hw, h1, bind, Except.bind]

/-- C17: writing a slice: raises `IndexError` for an illegal slice, `ValueError` for a wrong number
of values; otherwise indices inside the slice read the new values in order, all other indices, the
range and the length are unchanged. -/
theorem C17_array_setSlice (a : Arr α) (h : ArrWF a) (hw : a.warn = false) (L R : Int) (d : Dir)
    (hr : a.range = .mk3 L d R) (s : PySlice) (vs : List α) :
    (¬ (s.step = none ∧ sliceOk L d R (s.start.getD L) (s.stop.getD R)) →
      a.setSlice s vs = .error .indexError) ∧
    (s.step = none ∧ sliceOk L d R (s.start.getD L) (s.stop.getD R) →
      vs.length ≠ (Range.mk3 (s.start.getD L) d (s.stop.getD R)).len →
      a.setSlice s vs = .error .valueError) ∧
    (s.step = none ∧ sliceOk L d R (s.start.getD L) (s.stop.getD R) →
      vs.length = (Range.mk3 (s.start.getD L) d (s.stop.getD R)).len →
      ∃ b, a.setSlice s vs = .ok b ∧ ArrWF b ∧ b.range = a.range ∧ b.warn = false ∧
        (∀ k, between (s.start.getD L) d (s.stop.getD R) k →
          ∃ v, arrAt (s.start.getD L) d vs k = some v ∧ b.getItem k = .ok v) ∧
        (∀ k, ¬ between (s.start.getD L) d (s.stop.getD R) k → b.getItem k = a.getItem k)) := by
  rcases Arr.sliceBounds_pos a L d R s hr with ⟨h1, h2, h3⟩ | ⟨h1, h2⟩
  · obtain ⟨b1, b2, b3⟩ := id h3
    refine ⟨fun hn => absurd ⟨h2, h3⟩ hn, fun _ => ?_, fun _ => ?_⟩ <;>
    (clear h3
     generalize s.start.getD L = st at *
     generalize s.stop.getD R = sp at *
     rw [between_iff_pos] at b1 b2
     have hm := len_mk3 st d sp
     have e : posOf st d sp = posOf L d sp - posOf L d st := by
        cases d <;> simp only [posOf] <;> omega
     intro hvs)
    · have : (vs.length : Int) ≠ posOf L d sp - posOf L d st + 1 := by omega
      simp [Arr.setSlice, h1, bind, Except.bind, this]
    · have hv : (vs.length : Int) = posOf L d sp - posOf L d st + 1 := by omega
      have hl := h.1
      rw [hr] at hl
      have hlo : sliceLo a.value.length (posOf L d st) = (posOf L d st).toNat :=
        sliceLo_nonneg b1.1 (by omega)
      have hhi : sliceLo a.value.length (posOf L d sp + 1) = (posOf L d sp + 1).toNat :=
        sliceLo_nonneg (by omega) (by omega)
      have hres : a.setSlice s vs = .ok { a with
          value := pyListSetSlice a.value (posOf L d st) (posOf L d sp + 1) vs } := by
        simp [Arr.setSlice, h1, bind, Except.bind, hv]
      have hval : pyListSetSlice a.value (posOf L d st) (posOf L d sp + 1) vs =
          a.value.take (posOf L d st).toNat ++ vs ++ a.value.drop (posOf L d sp + 1).toNat := by
        simp only [pyListSetSlice, hlo, hhi]
        congr 2; omega
      have hlen : (pyListSetSlice a.value (posOf L d st) (posOf L d sp + 1) vs).length =
          a.range.len := by
        rw [hval, hr]; simp; omega
      refine ⟨_, hres, ⟨hlen, h.2⟩, rfl, hw, ?_, ?_⟩
      · intro k hk
        have hk' := (between_iff_pos st d sp k).1 hk
        have e2 : posOf st d k = posOf L d k - posOf L d st := by
          cases d <;> simp only [posOf] <;> omega
        have hin : (posOf st d k).toNat < vs.length := by omega
        refine ⟨vs[(posOf st d k).toNat], by simp [arrAt, hk'.1, List.getElem?_eq_getElem hin], ?_⟩
        rw [Arr.getItem_pos { a with
            value := pyListSetSlice a.value (posOf L d st) (posOf L d sp + 1) vs } L d R k hr hlen hw]
        have : arrAt L d (pyListSetSlice a.value (posOf L d st) (posOf L d sp + 1) vs) k =
            some vs[(posOf st d k).toNat] := by
          unfold arrAt
          have p0 : 0 ≤ posOf L d k := by omega
          simp only [p0, if_true, hval, List.append_assoc]
          rw [List.getElem?_append_right (by simp; omega)]
          have e3 : (posOf L d k).toNat - (List.take (posOf L d st).toNat a.value).length =
              (posOf st d k).toNat := by simp; omega
          rw [e3, List.getElem?_append_left hin, List.getElem?_eq_getElem hin]
        simp only [this]
      · intro k hk
        rw [between_iff_pos] at hk
        have e2 : posOf st d k = posOf L d k - posOf L d st := by
          cases d <;> simp only [posOf] <;> omega
        rw [Arr.getItem_pos { a with
            value := pyListSetSlice a.value (posOf L d st) (posOf L d sp + 1) vs } L d R k hr hlen hw, Arr.getItem_pos a L d R k hr h.1 hw]
        have : arrAt L d (pyListSetSlice a.value (posOf L d st) (posOf L d sp + 1) vs) k =
            arrAt L d a.value k := by
          unfold arrAt
          by_cases p0 : 0 ≤ posOf L d k
          · simp only [p0, if_true, hval, List.append_assoc]
            by_cases hlt : posOf L d k < posOf L d st
            · rw [List.getElem?_append_left (by simp; omega), List.getElem?_take, if_pos (by omega)]
            · rw [List.getElem?_append_right (by simp; omega),
                List.getElem?_append_right (by simp; omega), List.getElem?_drop]
              congr 1
              simp; omega
          · simp [p0]
        simp only [this]
  · refine ⟨fun _ => ?_, fun hp => absurd hp h2, fun hp => absurd hp h2⟩
    simp [Arr.setSlice, h1, bind, Except.bind]

/-- The hypotheses of the C17 theorems are met by an array with a descending, partly negative range. -/
example : ∃ a : Arr Nat, Arr.new [10, 20, 30, 40] (.range (.mk3 2 .downto (-1))) = .ok a ∧ ArrWF a ∧
    a.warn = false ∧ a.getItem (-1) = .ok 40 ∧
    (a.getSlice ⟨some 1, none, none⟩).map Arr.iter = .ok [20, 30, 40] ∧
    (a.setSlice ⟨some 1, some 0, none⟩ [7, 8]).map Arr.iter = .ok [10, 7, 8, 40] :=
  ⟨_, rfl, ⟨rfl, Or.inr rfl⟩, rfl, by decide, by decide, by decide⟩

/-! ## C21: search -/

variable [DecidableEq α]

/-- C21: `count` is the number of equal elements. -/
theorem C21_count (a : Arr α) (v : α) : a.count v = (a.iter.filter fun x => decide (x = v)).length := by
  have : ∀ (l : List α) (n : Nat), l.foldl (fun n x => if x = v then n + 1 else n) n =
      n + (l.filter fun x => decide (x = v)).length := by
    intro l
    induction l with
    | nil => simp
    | cons x xs ih =>
      intro n
      by_cases hx : x = v <;> simp [ih, hx]
      omega
  simp [Arr.count, this]

theorem C21_contains (a : Arr α) (v : α) : a.contains v = true ↔ v ∈ a.iter := by
  simp [Arr.contains, Arr.iter]

omit [DecidableEq α] in
theorem rangeSeq_nth (L R : Int) (d : Dir) (k : Nat) (i : Int) :
    (rangeSeq L d R)[k]? = some i ↔ i = rangeNth L d k ∧ (k : Int) ≤ posOf L d R := by
  cases d with
  | to =>
    simp only [rangeSeq, rangeNth, posOf, List.getElem?_map]
    by_cases hk : k < (R - L + 1).toNat
    · simp [hk]; omega
    · simp [List.getElem?_eq_none, Nat.le_of_not_lt hk]; omega
  | downto =>
    simp only [rangeSeq, rangeNth, posOf, List.getElem?_map]
    by_cases hk : k < (L - R + 1).toNat
    · simp [hk]; omega
    · simp [List.getElem?_eq_none, Nat.le_of_not_lt hk]; omega

theorem indexLoop_spec (a : Arr α) (v : α) (is : List Int)
    (hin : ∀ i ∈ is, ∃ x, a.getItem i = .ok x) :
    (∀ i, a.indexLoop v is = .ok i ↔
      ∃ k : Nat, is[k]? = some i ∧ a.getItem i = .ok v ∧
        ∀ k' j, k' < k → is[k']? = some j → a.getItem j ≠ .ok v) ∧
    ((∀ i ∈ is, a.getItem i ≠ .ok v) → a.indexLoop v is = .error .valueError) := by
  induction is with
  | nil => simp [Arr.indexLoop]
  | cons j js ih =>
    obtain ⟨x, hx⟩ := hin j (by simp)
    obtain ⟨ih1, ih2⟩ := ih (fun i hi => hin i (by simp [hi]))
    constructor
    · intro i
      simp only [Arr.indexLoop, hx, bind, Except.bind]
      by_cases hv : x = v
      · subst hv
        simp only [if_true]
        constructor
        · intro h; simp at h; subst h
          exact ⟨0, by simp, hx, by simp⟩
        · rintro ⟨k, h1, h2, h3⟩
          cases k with
          | zero => simp at h1; simp [h1]
          | succ k => exact absurd hx (h3 0 j (by omega) (by simp))
      · simp only [hv, if_false, ih1]
        constructor
        · rintro ⟨k, h1, h2, h3⟩
          refine ⟨k + 1, by simpa using h1, h2, ?_⟩
          intro k' j' hk' hj'
          cases k' with
          | zero => simp at hj'; subst hj'; rw [hx]; simp [hv]
          | succ k' => exact h3 k' j' (by omega) (by simpa using hj')
        · rintro ⟨k, h1, h2, h3⟩
          cases k with
          | zero =>
            simp at h1; subst h1
            rw [hx] at h2; simp at h2; exact absurd h2 hv
          | succ k =>
            exact ⟨k, by simpa using h1, h2, fun k' j' hk' hj' =>
              h3 (k' + 1) j' (by omega) (by simpa using hj')⟩
    · intro h
      have hv : x ≠ v := by
        intro hv; subst hv; exact h j (by simp) hx
      simp only [Arr.indexLoop, hx, bind, Except.bind, hv, if_false]
      exact ih2 (fun i hi => h i (by simp [hi]))

/-- C21: `index(v, start, stop)`, with missing bounds meaning the array's own, and bounds inside the
array: it returns `i` exactly when `i` is the first index (in the array's direction) of
`start .. stop`, inclusive, whose element is `v`; it raises `ValueError` when there is none. -/
theorem C21_index (a : Arr α) (h : ArrWF a) (hw : a.warn = false) (L R : Int) (d : Dir)
    (hr : a.range = .mk3 L d R) (v : α) (start stop : Option Int)
    (hin : ∀ i, between (start.getD L) d (stop.getD R) i → between L d R i) :
    (∀ i, a.index v start stop = .ok i ↔
      between (start.getD L) d (stop.getD R) i ∧ arrAt L d a.iter i = some v ∧
      ∀ j, between (start.getD L) d (stop.getD R) j → arrAt L d a.iter j = some v →
        posOf L d i ≤ posOf L d j) ∧
    ((∀ i, between (start.getD L) d (stop.getD R) i → arrAt L d a.iter i ≠ some v) →
      a.index v start stop = .error .valueError) := by
  have hidx : a.index v start stop =
      a.indexLoop v (rangeSeq (start.getD L) d (stop.getD R)) := by
    simp only [Arr.index, hr, Range.direction_mk3, bind, Except.bind, Range.left_mk3, Range.right_mk3,
      Range.items_mk3]
  generalize start.getD L = st at *
  generalize stop.getD R = sp at *
  have hget := fun i => (C17_array_get a h hw L R d hr i)
  obtain ⟨s1, s2⟩ := indexLoop_spec a v (rangeSeq st d sp) (fun i hi =>
    (hget i).2.1 (hin i ((Range.mem_rangeSeq st d sp i).1 hi)))
  rw [hidx]
  constructor
  · intro i
    rw [s1]
    constructor
    · rintro ⟨k, h1, h2, h3⟩
      have hmem := List.mem_of_getElem? h1
      rw [Range.mem_rangeSeq] at hmem
      refine ⟨hmem, ((hget i).1 v).1 h2, ?_⟩
      intro j hj hjv
      obtain ⟨k', hk'⟩ := List.mem_iff_getElem?.1 ((Range.mem_rangeSeq st d sp j).2 hj)
      have hge : ¬ k' < k := fun hlt => h3 k' j hlt hk' (((hget j).1 v).2 hjv)
      rw [rangeSeq_nth] at h1 hk'
      cases d <;> simp only [rangeNth, posOf] at * <;> omega
    · rintro ⟨h1, h2, h3⟩
      obtain ⟨k, hk⟩ := List.mem_iff_getElem?.1 ((Range.mem_rangeSeq st d sp i).2 h1)
      refine ⟨k, hk, ((hget i).1 v).2 h2, ?_⟩
      intro k' j hk' hj hjv
      have hb := (Range.mem_rangeSeq st d sp j).1 (List.mem_of_getElem? hj)
      have := h3 j hb (((hget j).1 v).1 hjv)
      rw [rangeSeq_nth] at hk hj
      cases d <;> simp only [rangeNth, posOf] at * <;> omega
  · intro hno
    apply s2
    intro i hi hv
    exact hno i ((Range.mem_rangeSeq st d sp i).1 hi) (((hget i).1 v).1 hv)

example : (Arr.mk [10, 20, 10, 30] (.mk3 3 .downto 0) false).index 10 (some 2) none = .ok 1 ∧
    (Arr.mk [10, 20, 10, 30] (.mk3 3 .downto 0) false).index 99 none none = .error .valueError := by
  decide

/-! ## C72: the index-change warning -/

/-- C72: enabling the warning changes no result of reading an index. -/
def C72_full : Prop :=
  ∀ (vs : List Nat) (L R : Int) (d : Dir) (i : Int), vs.length = (Range.mk3 L d R).len →
    (Arr.fromHandle vs (.mk3 L d R) true).getItem i = (Arr.fromHandle vs (.mk3 L d R) false).getItem i

/-- The code violates it: with the warning on, index 8 of an array `8 to 11` raises `IndexError`,
because the warning text uses the index as a position. -/
theorem C72_counterexample : ¬ C72_full := by
  intro h
  exact absurd (h [1, 2, 3, 4] 8 11 .to 8 (by decide)) (by decide)

omit [DecidableEq α] in
/-- C72 (partial): for ranges `n-1 downto 0` and `0 to n-1` the warning changes no result. -/
theorem C72_partial (vs : List α) (L R : Int) (d : Dir) (i : Int) (hl : vs.length = (Range.mk3 L d R).len)
    (hd : (d = .downto ∧ R = 0) ∨ (d = .to ∧ L = 0)) :
    (Arr.fromHandle vs (.mk3 L d R) true).getItem i = (Arr.fromHandle vs (.mk3 L d R) false).getItem i := by
  have hlen := len_mk3 L d R
  rcases Arr.translate_pos (Arr.fromHandle vs (.mk3 L d R) true) L d R i rfl with ⟨h1, h2⟩ | ⟨h1, h2⟩
  · have h3 := (between_iff_pos L d R i).1 h2
    have : ∃ x, (Range.mk3 L d R).getItem i = .ok x := by
      have hk : pyIndex (Range.mk3 L d R).rng.len i = some i.toNat := by
        apply pyIndex_nonneg
        · rcases hd with ⟨rfl, rfl⟩ | ⟨rfl, rfl⟩ <;> simp only [between] at h2 <;> omega
        · have : ((Range.mk3 L d R).rng.len : Int) = (Range.mk3 L d R).len := rfl
          rw [this]
          rcases hd with ⟨rfl, rfl⟩ | ⟨rfl, rfl⟩ <;> simp only [between, posOf] at * <;> omega
      simp [Range.getItem, PyRange.getItem, hk]
    obtain ⟨x, hx⟩ := this
    simp [Arr.getItem, Arr.warnItem, Arr.fromHandle, hx, Arr.translate]
  · have e2 : ∀ w, (Arr.fromHandle vs (.mk3 L d R) w).translate i = .error .indexError := fun w => h1
    have hri : ∀ e, (Range.mk3 L d R).getItem i = .error e → e = .indexError := by
      intro e he
      simp only [Range.getItem, PyRange.getItem] at he
      split at he <;> simp_all
    unfold Arr.getItem
    rw [e2, e2]
    cases hx : (Range.mk3 L d R).getItem i with
    | ok x => simp [Arr.warnItem, Arr.fromHandle, hx, bind, Except.bind]
    | error e => simp [Arr.warnItem, Arr.fromHandle, hx, bind, Except.bind, hri e hx]

end Verif
