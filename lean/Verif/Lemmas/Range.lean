import Verif.Spec.Range
namespace Verif
open Spec

/-- The opposite direction. -/
def Dir.flip : Dir → Dir
  | .to => .downto
  | .downto => .to

namespace Range

theorem valid_mk3 (l : Int) (d : Dir) (r : Int) : (mk3 l d r).Valid := by
  cases d <;> simp [mk3, Valid, Dir.step]

theorem valid_mk2 (l r : Int) : (mk2 l r).Valid := by
  unfold mk2 guessStep Valid; split <;> simp

/-- Every valid range is a three-argument construction. -/
theorem Valid.eq_mk3 {r : Range} (h : r.Valid) :
    (r.rng.step = 1 ∧ r = mk3 r.left .to r.right) ∨
    (r.rng.step = -1 ∧ r = mk3 r.left .downto r.right) := by
  rcases r with ⟨⟨a, b, s⟩⟩
  rcases h with h | h <;> simp at h <;> subst h <;> simp [mk3, left, right, Dir.step] <;> omega

theorem len_to (l r : Int) : (mk3 l .to r).len = (r - l + 1).toNat := by
  simp [mk3, len, PyRange.len, Dir.step]
  split <;> omega

theorem len_downto (l r : Int) : (mk3 l .downto r).len = (l - r + 1).toNat := by
  simp [mk3, len, PyRange.len, Dir.step]
  split <;> omega

theorem items_mk3 (l : Int) (d : Dir) (r : Int) : (mk3 l d r).items = rangeSeq l d r := by
  have h1 : (mk3 l d r).items = (List.range (mk3 l d r).len).map
      fun (i : Nat) => l + (i : Int) * d.step := rfl
  rw [h1]
  cases d with
  | to => rw [len_to]; simp [rangeSeq, Dir.step]
  | downto =>
    rw [len_downto]
    simp only [rangeSeq, Dir.step]
    apply List.map_congr_left
    intro a _; omega

theorem rangeSeq_length (l : Int) (d : Dir) (r : Int) :
    (rangeSeq l d r).length = (mk3 l d r).len := by
  cases d with
  | to => rw [len_to]; simp [rangeSeq]
  | downto => rw [len_downto]; simp [rangeSeq]

theorem mem_rangeSeq (l : Int) (d : Dir) (r v : Int) :
    v ∈ rangeSeq l d r ↔ between l d r v := by
  cases d with
  | to =>
    simp only [rangeSeq, between, List.mem_map, List.mem_range]
    constructor
    · rintro ⟨a, h, rfl⟩; omega
    · intro h; exact ⟨(v - l).toNat, by omega, by omega⟩
  | downto =>
    simp only [rangeSeq, between, List.mem_map, List.mem_range]
    constructor
    · rintro ⟨a, h, rfl⟩; omega
    · intro h; exact ⟨(l - v).toNat, by omega, by omega⟩

theorem rangeSeq_getElem? (l : Int) (d : Dir) (r : Int) (k : Nat) (h : k < (mk3 l d r).len) :
    (rangeSeq l d r)[k]? = some (l + (k : Int) * d.step) := by
  cases d with
  | to => rw [len_to] at h; simp [rangeSeq, Dir.step, h]
  | downto =>
    rw [len_downto] at h
    simp [rangeSeq, Dir.step, h]
    omega

theorem contains_mk3 (l : Int) (d : Dir) (r v : Int) :
    (mk3 l d r).contains v = true ↔ between l d r v := by
  cases d <;> simp [mk3, contains, PyRange.contains, Dir.step, between] <;> omega

theorem index_mk3 (l : Int) (d : Dir) (r v : Int) :
    (mk3 l d r).index v none none =
      if (mk3 l d r).contains v then .ok (if d = .to then v - l else l - v)
      else .error .valueError := by
  have h : ∀ x : Int, x.fdiv (-1) = -x := by
    intro x; rw [Int.fdiv_eq_ediv]; simp
  cases d <;> simp [mk3, index, contains, PyRange.index, Dir.step, h, Int.neg_sub]

theorem Valid.exists_mk3 {r : Range} (h : r.Valid) : ∃ l d x, r = mk3 l d x := by
  rcases h.eq_mk3 with h | h
  · exact ⟨_, _, _, h.2⟩
  · exact ⟨_, _, _, h.2⟩

@[simp] theorem left_mk3 (l d r) : (mk3 l d r).left = l := rfl
@[simp] theorem right_mk3 (l d r) : (mk3 l d r).right = r := by
  cases d <;> simp [mk3, right]
@[simp] theorem direction_mk3 (l d r) : (mk3 l d r).direction = .ok d := by
  cases d <;> simp [mk3, direction, Dir.ofStep, Dir.step]

theorem fromRange_ok {p : PyRange} (h : p.step = 1 ∨ p.step = -1) : fromRange p = .ok ⟨p⟩ := by
  rcases p with ⟨a, b, s⟩
  rcases h with h | h <;> simp at h <;> subst h <;> simp [fromRange, Dir.ofStep, mk3, Dir.step] <;> omega

theorem fromRange_err {p : PyRange} (h : ¬ (p.step = 1 ∨ p.step = -1)) :
    fromRange p = .error .valueError := by
  simp only [not_or] at h
  simp [fromRange, Dir.ofStep, h]

end Range
end Verif
