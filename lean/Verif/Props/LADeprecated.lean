import Verif.Model.LADeprecated
import Verif.Props.LogicArray
import Verif.Props.LogicArrayBytes
import Verif.Props.LogicArrayIndex
/-!
# C165: the deprecated attributes of `LogicArray` still read and write the whole value

`Rep a l` (Spec/LogicArray) says that the object `a` holds the elements `l`, leftmost first. `unsigned`, `signed` and
`bytesVal` are the numbers such lists and byte strings stand for.
-/
namespace Verif
open Spec Logic LA

namespace LADepL

theorem bounds_whole (a : LA) (l : List Logic) (h : Rep a l) :
    (l ≠ [] → ∃ L R, LA.sliceBounds a whole = .ok (L, R, 0, (l.length : Int) - 1)) ∧
    (l = [] → LA.sliceBounds a whole = .error .indexError) := by
  obtain ⟨L, d, R, hr⟩ := h.valid.exists_mk3
  have hb := Arr.sliceBounds_pos (asArr a l) L d R whole hr
  have hl : (l.length : Int) = max 0 (posOf L d R + 1) := by rw [h.len, hr, len_mk3]
  rw [la_sliceBounds_eq a l]
  simp only [whole, Option.getD_none] at hb ⊢
  have h0 : posOf L d L = 0 := by cases d <;> simp [posOf]
  have hbt : ∀ i, between L d R i ↔ 0 ≤ posOf L d i ∧ posOf L d i < l.length := by
    intro i; rw [between_iff_pos, h.len, hr]
  rw [h0] at hb
  constructor
  · intro hn
    have hp : 0 < l.length := by cases l <;> simp at hn ⊢
    rcases hb with ⟨b1, -⟩ | ⟨-, b2⟩
    · exact ⟨L, R, by rw [b1, show posOf L d R = (l.length : Int) - 1 by omega]⟩
    · exact absurd ⟨trivial, (hbt L).2 (by omega), (hbt R).2 (by omega), by omega⟩ b2
  · intro hn
    subst hn
    rcases hb with ⟨-, -, b2, -⟩ | ⟨b1, -⟩
    · have := (hbt L).1 b2; simp only [List.length_nil] at this; omega
    · exact b1

/-- `a[:] = v` for a value the constructor takes. -/
theorem set_ok (a : LA) (l : List Logic) (h : Rep a l) (hl : l ≠ []) (v : LAVal) (t : LA) (vs : List Logic)
    (hn : LA.new v (.int l.length) = .ok t) (ht : Rep t vs) (hvs : vs.length = l.length) :
    (a.setSlice whole (.val v)).1 = .ok () ∧ Rep (a.setSlice whole (.val v)).2 vs ∧
      (a.setSlice whole (.val v)).2.range = a.range := by
  obtain ⟨g1, g2, g3, g4, g5⟩ := getArray_rep h
  unfold LA.setSlice
  generalize hga : a.getArray = p at *
  obtain ⟨q, a'⟩ := p
  simp only at g1 g2 g3 g4 g5
  subst g1
  obtain ⟨L, R, hb⟩ := (bounds_whole a l h).1 hl
  have hbb : LA.sliceBounds { a' with str := none, int := none } whole = _ :=
    (sliceBounds_congr a _ g3 whole).trans hb
  have ht1 := (getArray_rep ht).1
  simp only [hbb, bind, Except.bind, SliceVal.toVal,
    show (l.length : Int) - 1 - 0 + 1 = (l.length : Int) by omega, hn, ht1]
  have hset : pyListSetSlice l 0 ((l.length : Int) - 1 + 1) vs = vs := by
    unfold pyListSetSlice
    rw [show (l.length : Int) - 1 + 1 = (l.length : Int) by omega, sliceLo_nonneg (by omega) (by omega),
      sliceLo_nonneg (by omega) (by omega)]
    simp
  refine ⟨trivial, ?_, g3⟩
  rw [hset]
  exact ⟨by show vs.length = a'.range.len; rw [hvs, ← g2.len], g2.valid, fun m hm => by simpa using hm.symm,
    by simp, by simp, fun _ => Or.inr ⟨rfl, by simp⟩⟩

/-- `a[:] = v` for a value the constructor refuses. -/
theorem set_err (a : LA) (l : List Logic) (h : Rep a l) (v : LAVal) (e : PyErr)
    (hn : l ≠ [] → LA.new v (.int l.length) = .error e) :
    (a.setSlice whole (.val v)).1 = .error (if l = [] then .indexError else e) ∧
      Rep (a.setSlice whole (.val v)).2 l ∧ (a.setSlice whole (.val v)).2.range = a.range := by
  obtain ⟨g1, g2, g3, g4, g5⟩ := getArray_rep h
  unfold LA.setSlice
  generalize hga : a.getArray = p at *
  obtain ⟨q, a'⟩ := p
  simp only at g1 g2 g3 g4 g5
  subst g1
  have hkeep : Rep { a' with str := none, int := none } l :=
    ⟨g2.len, g2.valid, g2.arr, by simp, by simp, fun _ => Or.inr ⟨rfl, by simp [g5]⟩⟩
  by_cases hl : l = []
  · have hbb : LA.sliceBounds { a' with str := none, int := none } whole = _ :=
      (sliceBounds_congr a _ g3 whole).trans ((bounds_whole a l h).2 hl)
    simp only [hbb, bind, Except.bind, if_pos hl]
    exact ⟨trivial, hkeep, g3⟩
  · obtain ⟨L, R, hb⟩ := (bounds_whole a l h).1 hl
    have hbb : LA.sliceBounds { a' with str := none, int := none } whole = _ :=
      (sliceBounds_congr a _ g3 whole).trans hb
    simp only [hbb, bind, Except.bind, SliceVal.toVal,
      show (l.length : Int) - 1 - 0 + 1 = (l.length : Int) by omega, hn hl, if_neg hl]
    exact ⟨trivial, hkeep, g3⟩

theorem len_int (n : Nat) : (Range.mk3 ((n : Int) - 1) .downto 0).len = n := by
  rw [Range.len_downto]; omega

/-- `a[:] = t` for an array of the same length. -/
theorem set_obj (a : LA) (l : List Logic) (h : Rep a l) (hl : l ≠ []) (t : LA) (vs : List Logic)
    (ht : Rep t vs) (hvs : vs.length = l.length) :
    (a.setSlice whole (.val (.obj t))).1 = .ok () ∧ Rep (a.setSlice whole (.val (.obj t))).2 vs ∧
      (a.setSlice whole (.val (.obj t))).2.range = a.range := by
  have hn : LA.new (.obj t) (.int l.length) =
      .ok ⟨t.arr, t.int, t.str, .mk3 ((l.length : Int) - 1) .downto 0, false⟩ := by
    simp only [LA.new, LA.normRange, len_int, LA.len, ← ht.len, hvs, ne_eq, not_true, if_false]
  exact set_ok a l h hl (.obj t) _ vs hn
    ⟨by show vs.length = (Range.mk3 ((l.length : Int) - 1) .downto 0).len; rw [len_int, hvs],
      Range.valid_mk3 _ _ _, ht.arr, ht.str, ht.int, ht.some⟩ hvs

end LADepL
open LADepL

/-- C165: assigning to `binstr` a string of as many literals as the array has elements replaces all elements, and `binstr`
then reads that string back, without underscores and in upper case. Every other string is refused and changes nothing, and
so is every string for an array without elements. The range stays. -/
theorem C165_binstr (a : LA) (l : List Logic) (h : Rep a l) (s : PyStr) :
    (a.setBinstr s).2.range = a.range ∧
    (l ≠ [] → (∀ c ∈ normStr s, c ∈ "UX01ZWLH-".toList) → (normStr s).length = l.length →
      (a.setBinstr s).1 = .ok () ∧ (a.setBinstr s).2.binstr.1 = .ok (normStr s) ∧
      ∃ m, Rep (a.setBinstr s).2 m ∧ chrs m = normStr s) ∧
    (¬ (l ≠ [] ∧ (∀ c ∈ normStr s, c ∈ "UX01ZWLH-".toList) ∧ (normStr s).length = l.length) →
      (a.setBinstr s).1 = .error (if l = [] then .indexError else .valueError) ∧ Rep (a.setBinstr s).2 l) := by
  by_cases hall : ∀ c ∈ normStr s, c ∈ "UX01ZWLH-".toList
  · obtain ⟨t, m, c1, c2, c3, -⟩ := (C13_str_ctor s).1 hall
    have hr := C13_str_range s (.mk3 ((l.length : Int) - 1) .downto 0) t c1
    have e : LA.new (.str s) (.int l.length) = LA.new (.str s) (.range (.mk3 ((l.length : Int) - 1) .downto 0)) := rfl
    rw [← e, len_int] at hr
    by_cases hlen : (normStr s).length = l.length
    · by_cases hl : l = []
      · obtain ⟨r1, r2, r3⟩ := set_err a l h (.str s) .valueError (fun x => absurd hl x)
        exact ⟨r3, fun x => absurd hl x, fun _ => ⟨r1, r2⟩⟩
      · rw [if_pos hlen] at hr
        have hm : m.length = l.length := by rw [← hlen, ← c3, chrs_length]
        obtain ⟨r1, r2, r3⟩ := set_ok a l h hl (.str s) _ m hr
          ⟨by show m.length = (Range.mk3 ((l.length : Int) - 1) .downto 0).len; rw [len_int, hm],
            Range.valid_mk3 _ _ _, c2.arr, c2.str, c2.int, c2.some⟩ hm
        exact ⟨r3, fun _ _ _ => ⟨r1, by rw [← c3]; exact (getStr_rep r2).1, m, r2, c3⟩,
          fun x => absurd ⟨hl, hall, hlen⟩ x⟩
    · rw [if_neg hlen] at hr
      obtain ⟨r1, r2, r3⟩ := set_err a l h (.str s) .valueError (fun _ => hr)
      exact ⟨r3, fun _ _ x => absurd x hlen, fun _ => ⟨r1, r2⟩⟩
  · have hset : "UX01ZWLH-".toList = LA.strLiterals := by decide
    have hn : LA.new (.str s) (.int l.length) = .error .valueError := by
      have : (normStr s).all (fun c => decide (c ∈ LA.strLiterals)) = false := by
        rw [← Bool.not_eq_true]; rw [hset] at hall; simpa using hall
      simp [LA.new, LA.normRange, this]
    obtain ⟨r1, r2, r3⟩ := set_err a l h (.str s) .valueError (fun _ => hn)
    exact ⟨r3, fun _ x => absurd x hall, fun _ => ⟨r1, r2⟩⟩

/-- C165: assigning to `integer` replaces the elements by the bits of the number, if it fits, and `integer` reads the number
back; otherwise ValueError is raised and nothing changes. The range stays. -/
theorem C165_integer (a : LA) (l : List Logic) (h : Rep a l) (v : Int) :
    (a.setInteger v).2.range = a.range ∧
    (l ≠ [] → 0 ≤ v → v < 2 ^ l.length →
      (a.setInteger v).1 = .ok () ∧ (∀ rx rng, ((a.setInteger v).2.integer rx rng).1 = .ok v) ∧
      ∃ m, Rep (a.setInteger v).2 m ∧ binary m ∧ unsigned m = some v.toNat) ∧
    (¬ (l ≠ [] ∧ 0 ≤ v ∧ v < 2 ^ l.length) →
      (a.setInteger v).1 = .error .valueError ∧ Rep (a.setInteger v).2 l) := by
  obtain ⟨c1, c2⟩ := C09_from_unsigned v (.mk3 ((l.length : Int) - 1) .downto 0) (Range.valid_mk3 _ _ _)
  have e : LA.fromUnsigned v (.int a.len) "error" =
      LA.fromUnsigned v (.range (.mk3 ((l.length : Int) - 1) .downto 0)) "error" := by
    rw [h.range_len]; rfl
  rw [len_int] at c1 c2
  by_cases hok : l ≠ [] ∧ 0 ≤ v ∧ v < 2 ^ l.length
  · obtain ⟨hl, h0, h1⟩ := hok
    have hp : 0 < l.length := by cases l <;> simp at hl ⊢
    obtain ⟨t, t1, t2, t3, -⟩ := c1 hp h0 h1
    have hnl : v.toNat < 2 ^ l.length := by
      have := pow_cast l.length; omega
    obtain ⟨r1, r2, r3⟩ := set_obj a l h hl t _ t3 (by simp [bitsBE])
    have hu := unsigned_bitsBE _ _ hnl
    unfold LA.setInteger
    rw [e, t1]
    refine ⟨r3, fun _ _ _ => ⟨r1, fun rx rng => ?_, _, r2, binary_bitsBE _ _, hu⟩,
      fun x => absurd ⟨hl, h0, h1⟩ x⟩
    have := toUnsigned_some rx rng r2 (ne_nil_of_len (by simp [bitsBE]; omega)) hu
    unfold LA.integer
    rw [this]; congr 1; omega
  · have c := c2 (by
      rintro ⟨x, y, z⟩
      exact hok ⟨by rintro rfl; simp at x, y, z⟩)
    unfold LA.setInteger
    rw [e, c]
    exact ⟨rfl, fun x y z => absurd ⟨x, y, z⟩ hok, fun _ => ⟨rfl, h⟩⟩

/-- C165: the same for `signed_integer` and two's complement. -/
theorem C165_signed (a : LA) (l : List Logic) (h : Rep a l) (v : Int) :
    (a.setSignedInteger v).2.range = a.range ∧
    (l ≠ [] → -(2 ^ (l.length - 1)) ≤ v → v < 2 ^ (l.length - 1) →
      (a.setSignedInteger v).1 = .ok () ∧ (∀ rx rng, ((a.setSignedInteger v).2.signedInteger rx rng).1 = .ok v) ∧
      ∃ m, Rep (a.setSignedInteger v).2 m ∧ binary m ∧ signed m = some v) ∧
    (¬ (l ≠ [] ∧ -(2 ^ (l.length - 1)) ≤ v ∧ v < 2 ^ (l.length - 1)) →
      (a.setSignedInteger v).1 = .error .valueError ∧ Rep (a.setSignedInteger v).2 l) := by
  obtain ⟨c1, c2⟩ := C10_from_signed v (.mk3 ((l.length : Int) - 1) .downto 0) (Range.valid_mk3 _ _ _)
  have e : LA.fromSigned v (.int a.len) "error" =
      LA.fromSigned v (.range (.mk3 ((l.length : Int) - 1) .downto 0)) "error" := by
    rw [h.range_len]; rfl
  rw [len_int] at c1 c2
  by_cases hok : l ≠ [] ∧ -(2 ^ (l.length - 1)) ≤ v ∧ v < 2 ^ (l.length - 1)
  · obtain ⟨hl, h0, h1⟩ := hok
    have hp : 0 < l.length := by cases l <;> simp at hl ⊢
    obtain ⟨t, m, t1, t2, t3, t4, t5, -⟩ := c1 hp h0 h1
    have hm : m.length = l.length := by rw [t3.len, t2, len_int]
    obtain ⟨r1, r2, r3⟩ := set_obj a l h hl t _ t3 hm
    have hml : m ≠ [] := ne_nil_of_len (by omega)
    unfold LA.setSignedInteger
    rw [e, t1]
    refine ⟨r3, fun _ _ _ => ⟨r1, fun rx rng => ?_, _, r2, t4, t5⟩, fun x => absurd ⟨hl, h0, h1⟩ x⟩
    have hres : resolvable m := fun x hx => by rcases t4 x hx with rfl | rfl <;> rfl
    obtain ⟨n, hn⟩ := Option.isSome_iff_exists.1 ((unsigned_isSome m).2 hres)
    obtain ⟨w, hw, ht⟩ := toSigned_some rx rng r2 hml hn
    have : w = v := by rw [t5] at hw; exact (Option.some.inj hw).symm
    subst this
    exact ht
  · have c := c2 (by
      rintro ⟨x, y, z⟩
      exact hok ⟨by rintro rfl; simp at x, y, z⟩)
    unfold LA.setSignedInteger
    rw [e, c]
    exact ⟨rfl, fun x y z => absurd ⟨x, y, z⟩ hok, fun _ => ⟨rfl, h⟩⟩

/-- C165: assigning to `buff` takes the bytes as one number, most significant byte first, and `buff` reads them back;
bytes that do not make up exactly the length of the array are refused and change nothing. The range stays. -/
theorem C165_buff (a : LA) (l : List Logic) (h : Rep a l) (b : List Byte) :
    (a.setBuff b).2.range = a.range ∧
    (l ≠ [] → b.length * 8 = l.length →
      (a.setBuff b).1 = .ok () ∧ (∀ rx rng, ((a.setBuff b).2.buff rx rng).1 = .ok b) ∧
      ∃ m, Rep (a.setBuff b).2 m ∧ binary m ∧ unsigned m = some (bytesVal b .big)) ∧
    (¬ (l ≠ [] ∧ b.length * 8 = l.length) →
      (a.setBuff b).1 = .error .valueError ∧ Rep (a.setBuff b).2 l) := by
  have hlen : LA.len a = l.length := h.range_len
  by_cases hok : l ≠ [] ∧ b.length * 8 = l.length
  · obtain ⟨hl, h0⟩ := hok
    have hp : 0 < l.length := by cases l <;> simp at hl ⊢
    have hb : b ≠ [] := by rintro rfl; simp at h0; omega
    obtain ⟨t, t1, t2, t3, t4⟩ := C15_from_bytes b hb .big
    have e : LA.fromBytes b (some (.int a.len)) .big = .ok t := by
      rw [← t1, hlen]
      simp only [LA.fromBytes, LA.reqRange, len_int, h0, ne_eq, not_true, if_false]
      rw [← h0]; rfl
    obtain ⟨r1, r2, r3⟩ := set_obj a l h hl t _ t3 (by simp [bitsBE, h0])
    have hu := unsigned_bitsBE _ _ t4
    unfold LA.setBuff
    rw [e]
    refine ⟨r3, fun _ _ => ⟨r1, fun rx rng => ?_, _, r2, binary_bitsBE _ _, hu⟩, fun x => absurd ⟨hl, h0⟩ x⟩
    obtain ⟨b1, e1, e2, e3, -⟩ := C15_to_bytes _ _ (bytesVal b .big) rx rng r2
      (ne_nil_of_len (by simp [bitsBE]; omega)) hu .big
    obtain ⟨b2, f1, f2, f3, -⟩ := C15_to_bytes t _ (bytesVal b .big) rx rng t3
      (ne_nil_of_len (by simp [bitsBE]; omega)) hu .big
    obtain ⟨t'', q1, q2⟩ := C15_bytes_roundtrip b hb .big rx rng
    have : t'' = t := by rw [t1] at q1; exact (Except.ok.inj q1).symm
    subst this
    rw [q2] at f1
    have hb2 := Except.ok.inj f1
    subst hb2
    show (LA.toBytes rx rng _ .big).1 = _
    rw [e1]
    have g1 := natToBytesLE_valLE b1.reverse
    have g2 := natToBytesLE_valLE b.reverse
    have hl2 : b1.length = b.length := e2.trans f2.symm
    simp only [bytesVal] at e3 g1 g2
    rw [e3, List.length_reverse, hl2] at g1
    rw [List.length_reverse] at g2
    rw [g1] at g2
    rw [List.reverse_inj.1 g2]
  · have c : LA.fromBytes b (some (.int a.len)) .big = .error .valueError := by
      rw [hlen]
      by_cases hx : b.length * 8 = l.length
      · have hl : l = [] := by
          by_cases hl : l = []
          · exact hl
          · exact absurd ⟨hl, hx⟩ hok
        subst hl
        have : b = [] := by cases b <;> simp at hx ⊢
        subst this
        decide
      · simp only [LA.fromBytes, LA.reqRange, len_int]
        rw [if_pos hx]
    unfold LA.setBuff
    rw [c]
    exact ⟨rfl, fun x y => absurd ⟨x, y⟩ hok, fun _ => ⟨rfl, h⟩⟩

/-- The four assignments on an array whose indices count upwards, and one that is refused. -/
example : ∃ a, LA.new (.str "1X0Z01LH".toList) (.range (.mk3 1 .to 8)) = .ok a ∧
    Rep a [F1, X, F0, Z, F0, F1, L, H] ∧
    (a.setBinstr "0000_zzzz".toList).2.getStr.1 = .ok "0000ZZZZ".toList ∧
    (a.setInteger 129).2.getStr.1 = .ok "10000001".toList ∧
    (a.setSignedInteger (-2)).2.getStr.1 = .ok "11111110".toList ∧
    (a.setBuff [7]).2.getStr.1 = .ok "00000111".toList ∧
    (a.setInteger 256).1 = .error .valueError :=
  ⟨_, rfl, rep_ofStr [F1, X, F0, Z, F0, F1, L, H] _ (Range.valid_mk3 _ _ _) (by decide) false,
    by decide +kernel, by decide +kernel, by decide +kernel, by decide +kernel, by decide +kernel⟩

end Verif
