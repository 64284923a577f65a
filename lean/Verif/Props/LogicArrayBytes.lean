import Verif.Props.LogicArray
/-!
# Properties of `LogicArray`: bytes (C15)
-/
namespace Verif
open Spec Logic

theorem bytesToNatBE_eq (b : List Byte) : bytesToNatBE b = valLE b.reverse := by
  have : ∀ (b : List Byte), b.foldr (fun x acc => 256 * acc + x.val) 0 = valLE b := by
    intro b
    induction b with
    | nil => rfl
    | cons x xs ih => simp only [List.foldr_cons, ih, valLE]; omega
  rw [← this, List.foldr_reverse]
  rfl

theorem intFromBytes_eq (b : List Byte) (o : ByteOrder) : intFromBytes b o = bytesVal b o := by
  cases o <;> simp [intFromBytes, bytesVal, bytesToNatBE_eq]

theorem natToBytesLE_length (k n : Nat) : (natToBytesLE k n).length = k := by
  induction k generalizing n with
  | zero => rfl
  | succ k ih => simp [natToBytesLE, ih]

theorem valLE_natToBytesLE (k n : Nat) (h : n < 256 ^ k) : valLE (natToBytesLE k n) = n := by
  induction k generalizing n with
  | zero => simp at h; simp [natToBytesLE, valLE, h]
  | succ k ih =>
    rw [Nat.pow_succ] at h
    simp only [natToBytesLE, valLE, ih (n / 256) (by omega)]
    omega

theorem valLE_lt (b : List Byte) : valLE b < 256 ^ b.length := by
  induction b with
  | nil => simp [valLE]
  | cons x xs ih =>
    simp only [valLE, List.length_cons, Nat.pow_succ]
    have := x.isLt
    omega

theorem natToBytesLE_valLE (b : List Byte) : natToBytesLE b.length (valLE b) = b := by
  induction b with
  | nil => rfl
  | cons x xs ih =>
    have hx := x.isLt
    simp only [valLE, List.length_cons, natToBytesLE]
    have h1 : (x.val + 256 * valLE xs) / 256 = valLE xs := by omega
    have h2 : (x.val + 256 * valLE xs) % 256 = x.val := by omega
    rw [h1, ih]
    congr 1
    exact Fin.ext h2

theorem pow_256 (k : Nat) : (256 : Nat) ^ k = 2 ^ (8 * k) := by
  rw [Nat.pow_mul]

/-- C15: `to_bytes` of a non-empty resolvable array never raises, yields `ceil(len/8)` bytes whose
value in that byte order is `to_unsigned()`; big- and little-endian results are reverses. -/
theorem C15_to_bytes (a : LA) (l : List Logic) (n : Nat) (rx : Option Resolver) (rng : LA.Rng)
    (h : Rep a l) (hl : l ≠ []) (hn : unsigned l = some n) (o : ByteOrder) :
    ∃ b, (a.toBytes rx rng o).1 = .ok b ∧ b.length = (l.length + 7) / 8 ∧ bytesVal b o = n ∧
      ∃ b', (a.toBytes rx rng (if o = .big then .little else .big)).1 = .ok b' ∧ b' = b.reverse := by
  have ht := toUnsigned_some rx rng h hl hn
  have hlt := unsigned_lt hn
  have hfit : n < 256 ^ ((l.length + 7) / 8) := by
    rw [pow_256]
    exact Nat.lt_of_lt_of_le hlt (Nat.pow_le_pow_right (by omega) (by omega))
  have hfit' : ¬ ((n : Int) < 0 ∨ (n : Int) ≥ (256 : Int) ^ ((l.length + 7) / 8)) := by
    have : ((256 ^ ((l.length + 7) / 8) : Nat) : Int) = (256 : Int) ^ ((l.length + 7) / 8) := by simp
    omega
  have key : ∀ o, (a.toBytes rx rng o).1 = .ok (match o with
      | .big => (natToBytesLE ((l.length + 7) / 8) n).reverse
      | .little => natToBytesLE ((l.length + 7) / 8) n) := by
    intro o
    unfold LA.toBytes
    generalize a.toUnsigned rx rng = p at ht
    obtain ⟨q, a', rng'⟩ := p
    simp only at ht
    subst ht
    simp only [h.range_len, intToBytes, hfit', if_false, Int.toNat_natCast]
    cases o <;> rfl
  cases o with
  | big =>
    refine ⟨_, key .big, by simp [natToBytesLE_length], by simp [bytesVal, valLE_natToBytesLE _ _ hfit],
      _, key .little, by simp⟩
  | little =>
    refine ⟨_, key .little, by simp [natToBytesLE_length],
      by simp [bytesVal, valLE_natToBytesLE _ _ hfit], _, key .big, rfl⟩

/-- C15: `from_bytes` of a non-empty byte string never raises, has `8 * len` elements and holds the
bytes' value. -/
theorem C15_from_bytes (b : List Byte) (hb : b ≠ []) (o : ByteOrder) :
    ∃ a, LA.fromBytes b none o = .ok a ∧ a.range = .mk3 ((b.length : Int) * 8 - 1) .downto 0 ∧
      Rep a (bitsBE (b.length * 8) (bytesVal b o)) ∧ bytesVal b o < 2 ^ (b.length * 8) := by
  have hpos : 0 < b.length := by cases b <;> simp at hb ⊢
  have hlen : (Range.mk3 ((b.length : Int) * 8 - 1) .downto 0).len = b.length * 8 := by
    rw [Range.len_downto]; omega
  have hlt : bytesVal b o < 2 ^ (b.length * 8) := by
    have h1 : ∀ c : List Byte, valLE c < 2 ^ (c.length * 8) := by
      intro c
      have := valLE_lt c
      rw [pow_256, Nat.mul_comm] at this
      exact this
    cases o
    · have := h1 b.reverse; simpa [bytesVal] using this
    · exact h1 b
  have hlt' : ¬ ((bytesVal b o : Int) ≥ 2 ^ (b.length * 8)) := by
    have := pow_cast (b.length * 8); omega
  have h0 : ¬ ((bytesVal b o : Int) < 0) := by omega
  refine ⟨⟨none, some (bytesVal b o : Int), none, .mk3 ((b.length : Int) * 8 - 1) .downto 0, false⟩,
    ?_, rfl, ?_, hlt⟩
  · simp only [LA.fromBytes, LA.new, LA.normRange, intFromBytes_eq, hlen, h0, if_false, hlt']
    have : ¬ (b.length * 8 = 0) := by omega
    simp [this]
  · have := rep_ofNat (.mk3 ((b.length : Int) * 8 - 1) .downto 0) (Range.valid_mk3 _ _ _)
      (by omega) (bytesVal b o) (by rw [hlen]; exact hlt) false
    rwa [hlen] at this

/-- C15: `from_bytes(b).to_bytes() == b`. -/
theorem C15_bytes_roundtrip (b : List Byte) (hb : b ≠ []) (o : ByteOrder) (rx : Option Resolver)
    (rng : LA.Rng) : ∃ a, LA.fromBytes b none o = .ok a ∧ (a.toBytes rx rng o).1 = .ok b := by
  obtain ⟨a, h1, -, h3, h4⟩ := C15_from_bytes b hb o
  have hpos : 0 < b.length := by cases b <;> simp at hb ⊢
  refine ⟨a, h1, ?_⟩
  obtain ⟨b', e1, e2, e3, -⟩ := C15_to_bytes a _ (bytesVal b o) rx rng h3
    (ne_nil_of_len (by simp; omega)) (unsigned_bitsBE _ _ h4) o
  rw [e1]
  have hl : b'.length = b.length := by rw [e2, bitsBE_length]; omega
  congr 1
  cases o with
  | little =>
    simp only [bytesVal] at e3
    rw [← natToBytesLE_valLE b', ← natToBytesLE_valLE b, hl, e3]
  | big =>
    simp only [bytesVal] at e3
    have : b'.reverse = b.reverse := by
      rw [← natToBytesLE_valLE b'.reverse, ← natToBytesLE_valLE b.reverse, e3]
      simp [hl]
    exact List.reverse_inj.1 this

/-- C15: for a 0/1 array whose length is a positive multiple of 8,
`from_bytes(a.to_bytes())` gives `a`'s elements back (also when its range is passed). -/
theorem C15_array_roundtrip (a : LA) (l : List Logic) (rx : Option Resolver) (rng : LA.Rng)
    (h : Rep a l) (hl : l ≠ []) (hb : binary l) (h8 : l.length % 8 = 0) (o : ByteOrder) :
    ∃ b c d, (a.toBytes rx rng o).1 = .ok b ∧ LA.fromBytes b none o = .ok c ∧ Rep c l ∧
      LA.fromBytes b (some (.range a.range)) o = .ok d ∧ Rep d l ∧ d.range = a.range := by
  have hres : resolvable l := fun x hx => by rcases hb x hx with rfl | rfl <;> rfl
  obtain ⟨n, hn⟩ := Option.isSome_iff_exists.1 ((unsigned_isSome l).2 hres)
  obtain ⟨b, e1, e2, e3, -⟩ := C15_to_bytes a l n rx rng h hl hn o
  have hlpos : 0 < l.length := by cases l <;> simp at hl ⊢
  have hbl : b.length * 8 = l.length := by omega
  have hbn : b ≠ [] := by intro hn; simp [hn] at hbl; omega
  obtain ⟨c, c1, -, c3, c4⟩ := C15_from_bytes b hbn o
  rw [hbl, e3, ← eq_bitsBE hb hn] at c3
  have hlt : n < 2 ^ a.range.len := by rw [← h.len]; exact unsigned_lt hn
  have hrd := rep_ofNat a.range h.valid (by rw [← h.len]; exact hlpos) n hlt false
  rw [← h.len, ← eq_bitsBE hb hn] at hrd
  refine ⟨b, c, _, e1, c1, c3, ?_, hrd, rfl⟩
  have p1 : ¬ (b.length * 8 ≠ a.range.len) := by rw [hbl, h.len]; simp
  have p2 : ¬ (a.range.len = 0) := by rw [← h.len]; omega
  have p3 : ¬ ((n : Int) < 0) := by omega
  have p4 : ¬ ((n : Int) ≥ 2 ^ a.range.len) := by have := pow_cast a.range.len; omega
  simp [LA.fromBytes, LA.reqRange, p1, LA.new, LA.normRange, intFromBytes_eq, e3, p2, p3, p4]

/-- C15: a length mismatch, and the empty byte string, raise `ValueError`. -/
theorem C15_errors (b : List Byte) (r : Range) (o : ByteOrder) :
    (b.length * 8 ≠ r.len → LA.fromBytes b (some (.range r)) o = .error .valueError) ∧
    LA.fromBytes [] none o = .error .valueError := by
  constructor
  · intro h; simp [LA.fromBytes, LA.reqRange, h]
  · cases o <;> decide

example : LA.fromBytes [1, 2] none .big = .ok ⟨none, some 258, none, .mk3 15 .downto 0, false⟩ ∧
    ((LA.mk none (some 258) none (.mk3 15 .downto 0) false).toBytes none (fun _ => false) .little).1 =
      .ok [2, 1] := by decide

end Verif
