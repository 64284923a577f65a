import Verif.Spec.Array
import Verif.Lemmas.Range
namespace Verif
open Spec

theorem pyIndex_nonneg {n : Nat} {i : Int} (h0 : 0 ≤ i) (h1 : i < n) : pyIndex n i = some i.toNat := by
  simp [pyIndex, h0, h1]

theorem sliceLo_nonneg {n : Nat} {i : Int} (h0 : 0 ≤ i) (h1 : i ≤ n) : sliceLo n i = i.toNat := by
  unfold sliceLo PySlice.adjust
  have : ¬ i < 0 := by omega
  have : ¬ i > n := by omega
  simp [*]

theorem len_mk3 (l : Int) (d : Dir) (r : Int) :
    ((Range.mk3 l d r).len : Int) = max 0 (posOf l d r + 1) := by
  cases d with
  | to => rw [Range.len_to]; simp only [posOf]; omega
  | downto => rw [Range.len_downto]; simp only [posOf]; omega

theorem between_iff_pos (l : Int) (d : Dir) (r i : Int) :
    between l d r i ↔ 0 ≤ posOf l d i ∧ posOf l d i < ((Range.mk3 l d r).len : Int) := by
  rw [len_mk3]
  cases d <;> simp only [between, posOf] <;> omega

theorem posOf_inj {l : Int} {d : Dir} {i j : Int} (h : posOf l d i = posOf l d j) : i = j := by
  cases d <;> simp only [posOf] at h <;> omega

/-- Translation of indices, for any range. -/
theorem index_pos (l : Int) (d : Dir) (r i : Int) :
    ((Range.mk3 l d r).index i none none = .ok (posOf l d i) ∧ between l d r i) ∨
    ((Range.mk3 l d r).index i none none = .error .valueError ∧ ¬ between l d r i) := by
  rw [Range.index_mk3]
  by_cases h : between l d r i
  · left
    refine ⟨?_, h⟩
    rw [(Range.contains_mk3 l d r i).2 h]
    cases d <;> simp [posOf]
  · right
    refine ⟨?_, h⟩
    have : (Range.mk3 l d r).contains i = false := by
      rw [← Bool.not_eq_true]; rwa [Range.contains_mk3]
    rw [this]; simp

namespace Arr
variable {α : Type}

theorem translate_pos (a : Arr α) (l : Int) (d : Dir) (r i : Int) (h : a.range = .mk3 l d r) :
    (a.translate i = .ok (posOf l d i) ∧ between l d r i) ∨
    (a.translate i = .error .indexError ∧ ¬ between l d r i) := by
  unfold translate
  rw [h]
  rcases index_pos l d r i with ⟨h1, h2⟩ | ⟨h1, h2⟩
  · left; rw [h1]; exact ⟨rfl, h2⟩
  · right; rw [h1]; exact ⟨rfl, h2⟩

theorem sliceBounds_pos (a : Arr α) (l : Int) (d : Dir) (r : Int) (s : PySlice)
    (h : a.range = .mk3 l d r) :
    (a.sliceBounds s = .ok (s.start.getD l, s.stop.getD r, posOf l d (s.start.getD l),
        posOf l d (s.stop.getD r)) ∧ s.step = none ∧
        sliceOk l d r (s.start.getD l) (s.stop.getD r)) ∨
    (a.sliceBounds s = .error .indexError ∧
      ¬ (s.step = none ∧ sliceOk l d r (s.start.getD l) (s.stop.getD r))) := by
  unfold sliceBounds
  rw [h, Range.left_mk3, Range.right_mk3]
  cases hs : s.step with
  | some x => right; simp
  | none =>
    simp only [Option.isSome_none]
    rcases translate_pos a l d r (s.start.getD l) h with ⟨h1, h2⟩ | ⟨h1, h2⟩
    · rcases translate_pos a l d r (s.stop.getD r) h with ⟨h3, h4⟩ | ⟨h3, h4⟩
      · by_cases h5 : posOf l d (s.start.getD l) > posOf l d (s.stop.getD r)
        · right
          simp only [h1, h3, bind, Except.bind, h5, if_true]
          refine ⟨rfl, ?_⟩
          rintro ⟨-, -, -, h⟩; omega
        · left
          simp only [h1, h3, bind, Except.bind, h5, if_false]
          exact ⟨rfl, trivial, h2, h4, by omega⟩
      · right
        simp only [h1, h3, bind, Except.bind]
        exact ⟨rfl, fun h => h4 h.2.2.1⟩
    · right
      simp only [h1, bind, Except.bind]
      exact ⟨rfl, fun h => h2 h.2.1⟩

theorem getItem_pos (a : Arr α) (l : Int) (d : Dir) (r i : Int) (h : a.range = .mk3 l d r)
    (hlen : a.value.length = a.range.len) (hw : a.warn = false) :
    a.getItem i = match arrAt l d a.value i with
      | some v => .ok v
      | none => .error .indexError := by
  unfold getItem warnItem arrAt
  rw [h] at hlen
  rcases translate_pos a l d r i h with ⟨h1, h2⟩ | ⟨h1, h2⟩
  · rw [between_iff_pos] at h2
    have h3 : posOf l d i < a.value.length := by omega
    simp only [h1, hw, bind, Except.bind]
    unfold pyListGet
    rw [pyIndex_nonneg h2.1 h3]
    simp only [h2.1, if_true]
    have h4 : (posOf l d i).toNat < a.value.length := by omega
    simp [List.getElem?_eq_getElem h4]
  · rw [between_iff_pos] at h2
    simp only [h1, hw, bind, Except.bind]
    by_cases h3 : 0 ≤ posOf l d i
    · have h4 : a.value.length ≤ (posOf l d i).toNat := by omega
      simp [h3, List.getElem?_eq_none h4]
    · simp [h3]

end Arr
end Verif
