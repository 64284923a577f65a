import Verif.Model.IndexChange
import Verif.Spec.IndexChange
import Verif.Props.LogicArrayIndex
/-!
# C181: warnings about changed indexing
-/
namespace Verif
open Spec IndexChange

namespace IndexChangeL

/-- Position in a range of what `range[i]` gives. -/
theorem range_get {L R i j : Int} {d : Dir} (h : (Range.mk3 L d R).getItem i = .ok j) :
    ∃ k : Nat, pyIndex (Range.mk3 L d R).len i = some k ∧ posOf L d j = k ∧ k < (Range.mk3 L d R).len := by
  unfold Range.getItem PyRange.getItem at h
  have e : (Range.mk3 L d R).rng.len = (Range.mk3 L d R).len := rfl
  rw [e] at h
  cases hk : pyIndex (Range.mk3 L d R).len i with
  | none => rw [hk] at h; cases h
  | some k =>
    rw [hk] at h
    refine ⟨k, rfl, ?_, ?_⟩
    · injection h with h
      rw [← h]
      cases d <;> simp [Range.mk3, Dir.step, posOf] <;> omega
    · unfold pyIndex at hk
      split at hk
      · injection hk with hk; omega
      · split at hk
        · injection hk with hk; omega
        · cases hk

theorem old_of_index {α : Type} {l : List α} {i : Int} {k : Nat} (h : pyIndex l.length i = some k) : oldAt l i = l[k]? := by
  unfold pyIndex at h
  unfold oldAt
  split at h
  · rename_i h1
    injection h with h
    rw [if_pos h1.1, h]
  · split at h
    · rename_i h1
      injection h with h
      rw [if_neg (by omega), if_pos h1.2, h]
    · cases h

theorem get_at {α : Type} (l : List α) (L R j : Int) (d : Dir) (hl : l.length = (Range.mk3 L d R).len) (k : Nat)
    (hk : posOf L d j = k) (x : α) (hx : l[k]? = some x) : (Arr.mk l (.mk3 L d R) false).getItem j = .ok x := by
  rw [Arr.getItem_pos _ L d R j rfl hl rfl]
  unfold arrAt
  simp only
  rw [if_pos (by omega), hk, Int.toNat_natCast, hx]

theorem advice {α : Type} (l : List α) (w : Bool) (r : Range) (hr : r.Valid) (hl : l.length = r.len) (i i' j : Int)
    (h : itemWarning w r i = some (.index i' j)) :
    i' = i ∧ ∃ x, oldAt l i = some x ∧ (Arr.mk l r false).getItem j = .ok x := by
  obtain ⟨L, d, R, rfl⟩ := hr.exists_mk3
  unfold itemWarning at h
  split at h
  · split at h
    · rename_i j' hj
      injection h with h
      injection h with h1 h2
      subst h1 h2
      obtain ⟨k, h1, h2, h3⟩ := range_get hj
      rw [← hl] at h1 h3
      have hx : l[k]? = some l[k] := List.getElem?_eq_getElem h3
      exact ⟨rfl, l[k], by rw [old_of_index h1, hx], get_at l L R _ d hl k h2 _ hx⟩
    · cases h
  · cases h

theorem rep_handle (l : List Logic) (w : Bool) : Rep (LA.fromHandle (chrs l) w) l := by
  refine ⟨?_, ?_, ?_, ?_, ?_, ?_⟩
  · show l.length = (LA.defaultRange (chrs l).length).len
    unfold LA.defaultRange
    rw [Range.len_downto]
    simp only [chrs, List.length_map]
    omega
  · exact Range.valid_mk3 _ _ _
  · intro m h; cases h
  · intro s h; injection h with h; exact h.symm
  · intro n h; cases h
  · intro h; cases h

theorem slice_at {α : Type} (l : List α) (L R s t : Int) (d : Dir) (hl : l.length = (Range.mk3 L d R).len) (a b : Nat)
    (hab : a ≤ b) (hb : b < l.length) (hs : posOf L d s = a) (ht : posOf L d t = b) :
    (Arr.mk l (.mk3 L d R) false).getSlice ⟨some s, some t, none⟩ = .ok ⟨(l.take (b + 1)).drop a, .mk3 s d t, false⟩ := by
  have b1 : between L d R s := (between_iff_pos L d R s).2 (by omega)
  have b2 : between L d R t := (between_iff_pos L d R t).2 (by omega)
  rcases Arr.sliceBounds_pos (Arr.mk l (.mk3 L d R) false) L d R ⟨some s, some t, none⟩ rfl with ⟨h1, -, -⟩ | ⟨-, h2⟩
  · have hv : pyListGetSlice l (posOf L d s) (posOf L d t + 1) = (l.take (b + 1)).drop a := by
      have e1 : sliceLo l.length (posOf L d s) = a := by rw [hs, sliceLo_nonneg (by omega) (by omega)]; omega
      have e2 : sliceLo l.length (posOf L d t + 1) = b + 1 := by rw [ht, sliceLo_nonneg (by omega) (by omega)]; omega
      simp only [pyListGetSlice, e1, e2]
      rw [List.drop_take]
    have hlen : ((l.take (b + 1)).drop a).length = (Range.mk3 s d t).len := by
      have := len_mk3 s d t
      have e : posOf s d t = posOf L d t - posOf L d s := by cases d <;> simp only [posOf] <;> omega
      rw [List.length_drop, List.length_take]
      omega
    unfold Arr.getSlice
    rw [h1]
    have hd : (Arr.mk l (.mk3 L d R) false).range.direction = .ok d := Range.direction_mk3 L d R
    rw [hd]
    simp only [Arr.warnSlice, bind, Except.bind, Option.getD_some, hv, Arr.new]
    rw [if_neg (by decide)]
    dsimp only
    rw [if_neg (fun h => h hlen)]
  · exact absurd ⟨rfl, b1, b2, by simp only [Option.getD_some]; omega⟩ h2

theorem slice_advice {α : Type} (l : List α) (w : Bool) (r : Range) (hr : r.Valid) (hl : l.length = r.len) (st sp : Option Int)
    (a b : Nat) (ha : st.getD 0 = a) (hb : sp.getD ((l.length : Int) - 1) = b) (hab : a ≤ b) (x y x' y' : Int)
    (h : sliceWarning w r st sp = some (.slice x y x' y')) :
    x = a ∧ y = b ∧ ∃ c, (Arr.mk l r false).getSlice ⟨some x', some y', none⟩ = .ok c ∧ c.value = (l.take (b + 1)).drop a := by
  obtain ⟨L, d, R, rfl⟩ := hr.exists_mk3
  unfold sliceWarning at h
  rw [hl] at hb
  split at h
  · simp only [ha, hb] at h
    split at h
    · rename_i s' t' e1 e2
      injection h with h
      injection h with h1 h2 h3 h4
      subst h3 h4
      obtain ⟨k, k1, k2, k3⟩ := range_get e1
      obtain ⟨m, m1, m2, m3⟩ := range_get e2
      have hk : k = a := by
        unfold pyIndex at k1
        split at k1
        · injection k1 with k1; omega
        · rw [if_neg (by omega)] at k1; cases k1
      have hm : m = b := by
        unfold pyIndex at m1
        split at m1
        · injection m1 with m1; omega
        · rw [if_neg (by omega)] at m1; cases m1
      subst hk hm
      exact ⟨h1.symm, h2.symm, _, slice_at l L R s' t' d hl k m hab (by omega) k2 m2, rfl⟩
    · cases h
  · cases h

theorem unflagged {r : Range} (hr : r.Valid) (h : flag true r = false) : ∃ R, r = .mk3 0 .to R := by
  obtain ⟨L, d, R, rfl⟩ := hr.exists_mk3
  unfold flag indexingChanged at h
  rw [if_pos rfl, Range.direction_mk3, Range.left_mk3] at h
  cases d with
  | downto => cases h
  | to =>
    have : L = 0 := by simpa using h
    subst this
    exact ⟨R, rfl⟩

end IndexChangeL
open IndexChangeL

/-! ## Following a warning -/

/-- C181: an index read from an array that is warned about: the index named in the warning has the element that
the index meant in cocotb 1.x. -/
theorem C181_advice {α : Type} (l : List α) (r : Range) (hr : r.Valid) (hl : l.length = r.len) (i i' j : Int)
    (h : (readItem (arrayValue true l r) i).1 = some (.index i' j)) :
    i' = i ∧ ∃ x, oldAt l i = some x ∧ (readItem (arrayValue false l r) j).2 = .ok x :=
  advice l _ r hr hl i i' j h

example : (readItem (arrayValue true [10, 11, 12, 13] (.mk3 1 .to 4)) (-1)).1 = some (.index (-1) 4) := by decide +kernel

/-- C181: the same for the bits of a packed signal, for any range of the signal. -/
theorem C181_logic_advice (l : List Logic) (r : Range) (i i' j : Int)
    (h : (readLogicItem (logicValue true (chrs l) r) i).1 = some (.index i' j)) :
    i' = i ∧ ∃ x, oldAt l i = some x ∧ (readLogicItem (logicValue false (chrs l) r) j).2 = .ok x := by
  have hrep := rep_handle l (flag true r)
  have hrep' := rep_handle l false
  unfold readLogicItem logicValue at *
  rw [(getArray_rep hrep).1] at h
  obtain ⟨h1, x, h2, h3⟩ := advice l _ _ hrep.valid hrep.len i i' j h
  refine ⟨h1, x, h2, ?_⟩
  show ((LA.fromHandle (chrs l) false).getItem j).1 = .ok x
  rw [(la_getItem_refines hrep' j).1]
  exact h3

example : (readLogicItem (logicValue true "10XZ".toList (.mk3 3 .downto 0)) 0).1 = some (.index 0 3) := by decide +kernel

/-! ## No warning -/

/-- C181: an index of an array that returns an element without a warning means what it meant in cocotb 1.x. -/
theorem C181_silent {α : Type} (l : List α) (r : Range) (hr : r.Valid) (hl : l.length = r.len) (i : Int) (x : α)
    (h : readItem (arrayValue true l r) i = (none, .ok x)) : oldAt l i = some x := by
  injection h with h1 h2
  cases hw : flag true r with
  | true =>
    exfalso
    have ha : (arrayValue true l r).warn = true := hw
    unfold itemWarning at h1
    rw [if_pos ha] at h1
    unfold Arr.getItem Arr.warnItem at h2
    rw [if_pos ha] at h2
    cases hg : (arrayValue true l r).range.getItem i with
    | ok j => rw [hg] at h1; cases h1
    | error e => rw [hg] at h2; cases h2
  | false =>
    obtain ⟨R, rfl⟩ := unflagged hr hw
    have e : arrayValue true l (.mk3 0 .to R) = Arr.mk l (.mk3 0 .to R) false := by
      unfold arrayValue Arr.fromHandle
      rw [hw]
    rw [e, Arr.getItem_pos _ 0 .to R i rfl hl rfl] at h2
    unfold arrAt posOf at h2
    simp only [Int.sub_zero] at h2
    unfold oldAt
    by_cases h0 : 0 ≤ i
    · rw [if_pos h0] at h2
      rw [if_pos h0]
      cases hx : l[i.toNat]? with
      | none => rw [hx] at h2; cases h2
      | some y => rw [hx] at h2; injection h2 with h2; rw [h2]
    · rw [if_neg h0] at h2; cases h2

example : readItem (arrayValue true [10, 11, 12, 13] (.mk3 0 .to 3)) 2 = (none, .ok 12) := by decide +kernel

/-- C181: a bit of a packed signal that is returned without a warning is the bit that cocotb 1.x gave. -/
def C181_logic_silent_full : Prop :=
  ∀ (l : List Logic) (r : Range) (i : Int) (x : Logic), r.Valid → l.length = r.len →
    readLogicItem (logicValue true (chrs l) r) i = (none, .ok x) → oldAt l i = some x

/-- The code violates it: the values of a signal `logic [0:1]` are not marked, as the signal is indexed from the
left, but they have the range `1 downto 0`. -/
theorem C181_logic_silent_counterexample : ¬ C181_logic_silent_full := by
  intro h
  exact absurd (h [Logic.F1, Logic.F0] (.mk3 0 .to 1) 0 Logic.F0 (Range.valid_mk3 _ _ _) (by decide) (by decide +kernel)) (by decide +kernel)

/-- C181 (partial): it holds for the signals that are not indexed from 0 upwards: there is always a warning. -/
theorem C181_logic_silent_partial (l : List Logic) (L R : Int) (d : Dir) (hr : ¬ (d = .to ∧ L = 0)) (i : Int) (x : Logic) :
    readLogicItem (logicValue true (chrs l) (.mk3 L d R)) i ≠ (none, .ok x) := by
  intro h
  injection h with h1 h2
  have hw : flag true (.mk3 L d R) = true := by
    unfold flag indexingChanged
    rw [if_pos rfl, Range.direction_mk3, Range.left_mk3]
    cases d with
    | downto => rfl
    | to =>
      have : L ≠ 0 := fun h => hr ⟨rfl, h⟩
      simpa using this
  have hrep := rep_handle l (flag true (.mk3 L d R))
  unfold logicValue at *
  rw [(getArray_rep hrep).1] at h1
  rw [(la_getItem_refines hrep i).1] at h2
  rw [hw] at h1 h2
  unfold itemWarning at h1
  unfold Arr.getItem Arr.warnItem asArr at h2
  simp only [LA.fromHandle, if_pos] at h1 h2
  cases hg : (LA.defaultRange (chrs l).length).getItem i with
  | ok j => rw [hg] at h1; cases h1
  | error e => rw [hg] at h2; cases h2

/-! ## Needless warnings -/

/-- C181: a warning is given only if the index means something else now. -/
def C181_needed_full : Prop :=
  ∀ (l : List Nat) (r : Range) (i : Int) (w : Warning), r.Valid → l.length = r.len → l.Nodup →
    (readItem (arrayValue true l r) i).1 = some w →
    ∀ x, oldAt l i = some x → (readItem (arrayValue false l r) i).2 ≠ .ok x

/-- The code violates it: the middle of `2 downto 0` is warned about with `Update index 1 to 1`. -/
theorem C181_needed_counterexample : ¬ C181_needed_full := by
  intro h
  exact absurd rfl (h [10, 11, 12] (.mk3 2 .downto 0) 1 (.index 1 1) (Range.valid_mk3 _ _ _) (by decide) (by decide)
    (by decide +kernel) 11 (by decide +kernel))

/-- C181 (partial): it holds for the warnings that name another index than the one used. -/
theorem C181_needed_partial {α : Type} (l : List α) (r : Range) (hr : r.Valid) (hl : l.length = r.len) (hn : l.Nodup)
    (i j : Int) (hij : i ≠ j) (h : (readItem (arrayValue true l r) i).1 = some (.index i j)) (x : α) (hx : oldAt l i = some x) :
    (readItem (arrayValue false l r) i).2 ≠ .ok x := by
  obtain ⟨-, y, h1, h2⟩ := C181_advice l r hr hl i i j h
  rw [hx] at h1
  injection h1 with h1
  subst h1
  intro h3
  obtain ⟨L, d, R, rfl⟩ := hr.exists_mk3
  have g : ∀ k, (readItem (arrayValue false l (.mk3 L d R)) k).2 = .ok x → 0 ≤ posOf L d k ∧ l[(posOf L d k).toNat]? = some x := by
    intro k hk
    have e : (readItem (arrayValue false l (.mk3 L d R)) k).2 = (Arr.mk l (.mk3 L d R) false).getItem k := rfl
    rw [e, Arr.getItem_pos _ L d R k rfl hl rfl] at hk
    unfold arrAt at hk
    by_cases h0 : 0 ≤ posOf L d k
    · simp only [if_pos h0] at hk
      cases hy : l[(posOf L d k).toNat]? with
      | none => rw [hy] at hk; cases hk
      | some y => rw [hy] at hk; injection hk with hk; exact ⟨h0, by rw [hk]⟩
    · simp only [if_neg h0] at hk; cases hk
  obtain ⟨a1, a2⟩ := g i h3
  obtain ⟨b1, b2⟩ := g j h2
  have hlt : (posOf L d i).toNat < l.length := (List.getElem?_eq_some_iff.1 a2).1
  have := (List.getElem?_inj hlt hn).1 (a2.trans b2.symm)
  exact hij (posOf_inj (l := L) (d := d) (by omega))

example : (readItem (arrayValue true [10, 11, 12, 13] (.mk3 3 .downto 0)) 1).1 = some (.index 1 2) := by decide +kernel

/-- C181: without the environment variable nothing is warned about. -/
theorem C181_off {α : Type} (l : List α) (s : PyStr) (r : Range) (i : Int) (a b : Option Int) :
    (readItem (arrayValue false l r) i).1 = none ∧ (readSlice (arrayValue false l r) a b).1 = none ∧
    (readLogicItem (logicValue false s r) i).1 = none ∧ (readLogicSlice (logicValue false s r) a b).1 = none := by
  refine ⟨rfl, rfl, ?_, ?_⟩
  · unfold readLogicItem
    dsimp only
    split <;> rfl
  · unfold readLogicSlice
    dsimp only
    split <;> rfl

/-! ## Slices -/

/-- C181: a slice of the bits of a packed signal that is warned about: the slice named in the warning has the bits
that the slice had in cocotb 1.x. A missing start is the left end, a missing stop is the right end. -/
theorem C181_slice_advice (l : List Logic) (r : Range) (st sp : Option Int) (a b : Nat) (ha : st.getD 0 = a)
    (hb : sp.getD ((l.length : Int) - 1) = b) (hab : a ≤ b) (x y x' y' : Int)
    (h : (readLogicSlice (logicValue true (chrs l) r) st sp).1 = some (.slice x y x' y')) :
    x = a ∧ y = b ∧ ∃ c, (readLogicSlice (logicValue false (chrs l) r) (some x') (some y')).2 = .ok c ∧ Rep c (oldBits l a b) := by
  have hrep := rep_handle l (flag true r)
  have hrep' := rep_handle l false
  unfold readLogicSlice logicValue at *
  rw [(getArray_rep hrep).1] at h
  obtain ⟨h1, h2, c, h3, h4⟩ := slice_advice l _ _ hrep.valid hrep.len st sp a b ha hb hab x y x' y' h
  obtain ⟨c', k1, k2, -, -⟩ := (la_getSlice_refines hrep' ⟨some x', some y', none⟩).1 c h3
  refine ⟨h1, h2, c', k1, ?_⟩
  rw [h4] at k2
  exact k2

example : (readLogicSlice (logicValue true "10XZ0011".toList (.mk3 7 .downto 0)) none (some 3)).1 = some (.slice 0 3 7 4) := by
  decide +kernel

/-- C181: a slice of an array that is warned about: the slice named in the warning has the elements that the slice
of the list had in cocotb 1.x. -/
def C181_array_slice_full : Prop :=
  ∀ (l : List Nat) (r : Range) (a b : Nat) (x y x' y' : Int), r.Valid → l.length = r.len → a < b →
    (readSlice (arrayValue true l r) (some a) (some b)).1 = some (.slice x y x' y') →
    ∃ c, (readSlice (arrayValue false l r) (some x') (some y')).2 = .ok c ∧ c.value = oldElems l a b

/-- The code violates it: the stop of the slice of a list is not part of it, that of an array is. -/
theorem C181_array_slice_counterexample : ¬ C181_array_slice_full := by
  intro h
  obtain ⟨c, h1, h2⟩ := h [10, 11, 12, 13] (.mk3 3 .downto 0) 0 2 0 2 3 1 (Range.valid_mk3 _ _ _) (by decide) (by decide)
    (by decide +kernel)
  obtain ⟨-, -, c', k1, k2⟩ := slice_advice [10, 11, 12, 13] true (.mk3 3 .downto 0) (Range.valid_mk3 _ _ _) (by decide)
    (some 0) (some 2) 0 2 rfl rfl (by decide) 0 2 3 1 (by decide +kernel)
  have e : c' = c := by
    have h1' : (Arr.mk [10, 11, 12, 13] (.mk3 3 .downto 0) false).getSlice ⟨some 3, some 1, none⟩ = .ok c := h1
    rw [k1] at h1'
    injection h1'
  rw [e, h2] at k2
  revert k2
  decide +kernel

/-- C181 (partial): the slice named in the warning has one element more, the one at the stop. -/
theorem C181_array_slice_partial {α : Type} (l : List α) (r : Range) (hr : r.Valid) (hl : l.length = r.len) (a b : Nat)
    (hab : a ≤ b) (x y x' y' : Int)
    (h : (readSlice (arrayValue true l r) (some a) (some b)).1 = some (.slice x y x' y')) :
    ∃ c e, (readSlice (arrayValue false l r) (some x') (some y')).2 = .ok c ∧ l[b]? = some e ∧ c.value = oldElems l a b ++ [e] := by
  obtain ⟨L, d, R, rfl⟩ := hr.exists_mk3
  have hb : b < l.length := by
    have h' : sliceWarning (flag true (.mk3 L d R)) (.mk3 L d R) (some a) (some b) = some (.slice x y x' y') := h
    unfold sliceWarning at h'
    split at h'
    · simp only [Option.getD_some] at h'
      split at h'
      · rename_i e1 e2
        obtain ⟨m, m1, m2, m3⟩ := range_get e2
        unfold pyIndex at m1
        split at m1
        · omega
        · rw [if_neg (by omega)] at m1; cases m1
      · cases h'
    · cases h'
  obtain ⟨-, -, c, h3, h4⟩ := slice_advice l _ _ (Range.valid_mk3 L d R) hl (some a) (some b) a b rfl rfl hab x y x' y' h
  refine ⟨c, l[b], h3, List.getElem?_eq_getElem hb, ?_⟩
  rw [h4, oldElems, List.take_succ_eq_append_getElem hb, List.drop_append_of_le_length (by rw [List.length_take]; omega)]

example : (readSlice (arrayValue true [10, 11, 12, 13] (.mk3 1 .to 4)) (some (1 : Nat)) (some (2 : Nat))).1 = some (.slice 1 2 2 3) := by
  decide +kernel

/-! ## Values made from values -/

/-- C181: an index into a slice of a value that returns an element without a warning means what it meant. -/
def C181_derived_full : Prop :=
  ∀ (l : List Nat) (r : Range) (s t i : Int) (c : Arr Nat) (x : Nat), r.Valid → l.length = r.len →
    (readSlice (arrayValue true l r) (some s) (some t)).2 = .ok c → readItem c i = (none, .ok x) → oldAt c.value i = some x

/-- The code violates it: slices are never marked. -/
theorem C181_derived_counterexample : ¬ C181_derived_full := by
  intro h
  have hs : (readSlice (arrayValue true [10, 11, 12, 13] (.mk3 3 .downto 0)) (some 1) (some 0)).2 =
      .ok ⟨[12, 13], .mk3 1 .downto 0, false⟩ := by rfl
  exact absurd (h _ _ 1 0 0 _ 13 (Range.valid_mk3 _ _ _) (by decide) hs (by decide +kernel)) (by decide +kernel)

/-- C181 (partial): it holds for the slices that are indexed from 0 upwards. -/
theorem C181_derived_partial {α : Type} (l : List α) (R : Int) (i : Int) (x : α) (hl : l.length = (Range.mk3 0 .to R).len)
    (h : readItem (Arr.mk l (.mk3 0 .to R) false) i = (none, .ok x)) : oldAt l i = some x :=
  C181_silent l (.mk3 0 .to R) (Range.valid_mk3 _ _ _) hl i x h

example : readItem (Arr.mk [10, 11] (.mk3 0 .to 1) false) 1 = (none, .ok 11) := by decide +kernel

/-! ## C72 for slices and for the bits of signals -/

namespace IndexChangeL

theorem range_err {r : Range} {i : Int} {e : PyErr} (h : r.getItem i = .error e) : e = .indexError := by
  simp only [Range.getItem, PyRange.getItem] at h
  split at h <;> simp_all

theorem range_ok {r : Range} {i : Int} (h0 : 0 ≤ i) (h1 : i < r.len) : ∃ x, r.getItem i = .ok x := by
  have hk : pyIndex r.rng.len i = some i.toNat := pyIndex_nonneg h0 h1
  simp [Range.getItem, PyRange.getItem, hk]

end IndexChangeL

/-- C72 (partial): for ranges `n-1 downto 0` and `0 to n-1` the warning changes no result of reading a slice either,
but for the mark, which slices never have. -/
theorem C72_slice_partial {α : Type} (vs : List α) (L R : Int) (d : Dir) (s : PySlice)
    (hd : (d = .downto ∧ R = 0) ∨ (d = .to ∧ L = 0)) :
    (Arr.fromHandle vs (.mk3 L d R) true).getSlice s = (Arr.fromHandle vs (.mk3 L d R) false).getSlice s := by
  have hlen := len_mk3 L d R
  have e0 : (Arr.fromHandle vs (.mk3 L d R) false).sliceBounds s = (Arr.fromHandle vs (.mk3 L d R) true).sliceBounds s := rfl
  have w0 : (Arr.fromHandle vs (.mk3 L d R) false).warnSlice s.start s.stop = .ok () := rfl
  have we : ∀ e, (Arr.fromHandle vs (.mk3 L d R) true).warnSlice s.start s.stop = .error e → e = .indexError := by
    intro e h
    unfold Arr.warnSlice Arr.fromHandle at h
    simp only [if_true, bind, Except.bind] at h
    split at h
    · rename_i e1 h1
      injection h with h
      rw [← h]
      exact range_err h1
    · split at h
      · rename_i e1 h1
        injection h with h
        rw [← h]
        exact range_err h1
      · cases h
  rcases Arr.sliceBounds_pos (Arr.fromHandle vs (.mk3 L d R) true) L d R s rfl with ⟨h1, -, b1, b2, -⟩ | ⟨h1, -⟩
  · have w1 : (Arr.fromHandle vs (.mk3 L d R) true).warnSlice s.start s.stop = .ok () := by
      have p1 := (between_iff_pos L d R _).1 b1
      have p2 := (between_iff_pos L d R _).1 b2
      have g1 : ∃ x, (Range.mk3 L d R).getItem (s.start.getD 0) = .ok x := by
        cases hs : s.start with
        | none => exact range_ok (Int.le_refl _) (by simp only [Option.getD_none]; omega)
        | some v =>
          rw [hs] at b1 p1
          simp only [Option.getD_some] at *
          exact range_ok (by rcases hd with ⟨rfl, rfl⟩ | ⟨rfl, rfl⟩ <;> simp only [between] at b1 <;> omega)
            (by rcases hd with ⟨rfl, rfl⟩ | ⟨rfl, rfl⟩ <;> simp only [between, posOf] at * <;> omega)
      have g2 : ∃ x, (Range.mk3 L d R).getItem (s.stop.getD (((Range.mk3 L d R).len : Int) - 1)) = .ok x := by
        cases hs : s.stop with
        | none => simp only [Option.getD_none]; exact range_ok (by omega) (by omega)
        | some v =>
          rw [hs] at b2 p2
          simp only [Option.getD_some] at *
          exact range_ok (by rcases hd with ⟨rfl, rfl⟩ | ⟨rfl, rfl⟩ <;> simp only [between] at b2 <;> omega)
            (by rcases hd with ⟨rfl, rfl⟩ | ⟨rfl, rfl⟩ <;> simp only [between, posOf] at * <;> omega)
      obtain ⟨x, hx⟩ := g1
      obtain ⟨y, hy⟩ := g2
      unfold Arr.warnSlice Arr.fromHandle Arr.len
      simp only [if_true, bind, Except.bind, hx, hy]
    unfold Arr.getSlice
    rw [w0, w1, e0]
    rfl
  · unfold Arr.getSlice
    rw [w0, e0, h1]
    cases hw : (Arr.fromHandle vs (.mk3 L d R) true).warnSlice s.start s.stop with
    | ok u => rfl
    | error e => rw [we e hw]; rfl

example : ((Arr.fromHandle [10, 11, 12, 13] (.mk3 3 .downto 0) true).getSlice ⟨some 2, some 1, none⟩).toOption.map Arr.value =
    some [11, 12] := by decide +kernel

/-- C72: for signals the warning changes no result of reading an index, whatever their range is. -/
theorem C72_logic (l : List Logic) (r : Range) (i : Int) :
    ((logicValue true (chrs l) r).getItem i).1 = ((logicValue false (chrs l) r).getItem i).1 := by
  unfold logicValue
  rw [(la_getItem_refines (rep_handle l (flag true r)) i).1, (la_getItem_refines (rep_handle l (flag false r)) i).1]
  have hf : flag false r = false := rfl
  rw [hf]
  cases flag true r with
  | false => rfl
  | true => exact C72_partial l _ 0 .downto i (rep_handle l true).len (.inl ⟨rfl, rfl⟩)

/-- C72: for signals the warning changes no result of reading a slice: the same error, or values with the same bits
and the same range. -/
theorem C72_logic_slice (l : List Logic) (r : Range) (s : PySlice) :
    (∃ e, ((logicValue true (chrs l) r).getSlice s).1 = .error e ∧ ((logicValue false (chrs l) r).getSlice s).1 = .error e) ∨
    (∃ a b m, ((logicValue true (chrs l) r).getSlice s).1 = .ok a ∧ ((logicValue false (chrs l) r).getSlice s).1 = .ok b ∧
      Rep a m ∧ Rep b m ∧ a.range = b.range) := by
  unfold logicValue
  have h1 := la_getSlice_refines (rep_handle l (flag true r)) s
  have h2 := la_getSlice_refines (rep_handle l (flag false r)) s
  have e : (asArr (LA.fromHandle (chrs l) (flag true r)) l).getSlice s = (asArr (LA.fromHandle (chrs l) (flag false r)) l).getSlice s := by
    have hf : flag false r = false := rfl
    rw [hf]
    cases flag true r with
    | false => rfl
    | true => exact C72_slice_partial l _ 0 .downto s (.inl ⟨rfl, rfl⟩)
  cases hg : (asArr (LA.fromHandle (chrs l) (flag false r)) l).getSlice s with
  | error x => exact .inl ⟨x, h1.2.1 x (e.trans hg), h2.2.1 x hg⟩
  | ok b =>
    obtain ⟨c1, a1, a2, a3, -⟩ := h1.1 b (e.trans hg)
    obtain ⟨c2, b1, b2, b3, -⟩ := h2.1 b hg
    exact .inr ⟨c1, c2, b.value, a1, b1, a2, b2, a3.trans b3.symm⟩

example : ((logicValue true "10XZ".toList (.mk3 8 .downto 5)).getItem 3).1 = .ok Logic.F1 ∧
    flag true (.mk3 8 .downto 5) = true := by decide +kernel

end Verif
