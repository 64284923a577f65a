import Verif.Lemmas.LogicArray
/-!
# Properties of `LogicArray`: construction and conversion (C09 - C15)
-/
namespace Verif
open Spec Logic

theorem ne_nil_of_len {l : List Logic} (h : 0 < l.length) : l ≠ [] := by
  intro hn; simp [hn] at h

theorem pow_cast (n : Nat) : ((2 ^ n : Nat) : Int) = (2 : Int) ^ n := by simp

/-- Residue of a value in `[-M, M)`. -/
theorem emod_window {v M : Int} (h0 : -M ≤ v) (h1 : v < M) :
    v % M = if v < 0 then v + M else v := by
  by_cases hv : v < 0
  · rw [if_pos hv, ← Int.add_emod_right, Int.emod_eq_of_lt (by omega) (by omega)]
  · rw [if_neg hv, Int.emod_eq_of_lt (by omega) (by omega)]

/-! ## C09 -/

/-- C09: `from_unsigned(v, r)` succeeds exactly when `r` is non-null and `0 ≤ v < 2^len`; the array
then holds the `len`-digit binary numeral of `v`, prints as that numeral and reads back `v`
(whatever resolver is configured). Otherwise `ValueError`. -/
theorem C09_from_unsigned (v : Int) (r : Range) (hr : r.Valid) :
    (0 < r.len → 0 ≤ v → v < 2 ^ r.len →
      ∃ a, LA.fromUnsigned v (.range r) "error" = .ok a ∧ a.range = r ∧
        Rep a (bitsBE r.len v.toNat) ∧
        a.getStr.1 = .ok (chrs (bitsBE r.len v.toNat)) ∧
        ∀ rx rng, (a.toUnsigned rx rng).1 = .ok v) ∧
    (¬ (0 < r.len ∧ 0 ≤ v ∧ v < 2 ^ r.len) →
      LA.fromUnsigned v (.range r) "error" = .error .valueError) := by
  constructor
  · intro hl h0 h1
    obtain ⟨n, rfl⟩ := Int.eq_ofNat_of_zero_le h0
    have hn : n < 2 ^ r.len := by
      have := pow_cast r.len; omega
    have hrep := rep_ofNat r hr hl n hn false
    refine ⟨⟨none, some (n : Int), none, r, false⟩, ?_, rfl, hrep, (getStr_rep hrep).1, ?_⟩
    · have a1 : ¬ ((n : Int) < 0) := by omega
      have a2 : ¬ (r.len = 0) := by omega
      have a3 : ¬ ((n : Int) ≥ 2 ^ r.len) := by omega
      simp [LA.fromUnsigned, LA.reqRange, a1, a2, a3]
    · intro rx rng
      exact toUnsigned_some rx rng hrep (ne_nil_of_len (by simp; omega)) (unsigned_bitsBE _ _ hn)
  · intro hn
    by_cases h0 : v < 0
    · simp [LA.fromUnsigned, LA.reqRange, h0]
    · by_cases h1 : r.len = 0
      · simp [LA.fromUnsigned, LA.reqRange, h0, h1]
      · have : v ≥ 2 ^ r.len := by
          apply Classical.byContradiction; intro hc; exact hn ⟨by omega, by omega, by omega⟩
        simp [LA.fromUnsigned, LA.reqRange, h0, h1, this]

/-- C09: an integer length `n` means the range `n-1 downto 0`; other argument types raise. -/
theorem C09_range_arg (v n : Int) (o : String) :
    LA.fromUnsigned v (.int n) o = LA.fromUnsigned v (.range (.mk3 (n - 1) .downto 0)) o ∧
    LA.fromUnsigned v .other o = .error .typeError := ⟨rfl, rfl⟩

example : LA.fromUnsigned 10 (.int 4) "error" = .ok ⟨none, some 10, none, .mk3 3 .downto 0, false⟩ ∧
    chrs (bitsBE 4 10) = "1010".toList ∧ LA.fromUnsigned 16 (.int 4) "error" = .error .valueError := by
  decide

/-! ## C10 -/

theorem signed_fits (w : Nat) (hw : 0 < w) (v : Int) (h0 : -(2 ^ (w - 1)) ≤ v) (h1 : v < 2 ^ (w - 1)) :
    0 ≤ v % (2 * 2 ^ (w - 1)) ∧ v % (2 * 2 ^ (w - 1)) < 2 ^ w ∧
    (v % (2 * 2 ^ (w - 1)) = if v < 0 then v + 2 ^ w else v) := by
  have e : (2 : Int) ^ w = 2 * 2 ^ (w - 1) := by
    obtain ⟨k, rfl⟩ : ∃ k, w = k + 1 := ⟨w - 1, by omega⟩
    rw [Int.pow_succ]; simp; omega
  rw [e]
  have hp : (0 : Int) < 2 ^ (w - 1) := Int.pow_pos (by omega)
  generalize (2 : Int) ^ (w - 1) = P at *
  rw [emod_window (by omega) (by omega)]
  split <;> omega

theorem signed_bitsBE (w : Nat) (hw : 0 < w) (v : Int) (h0 : -(2 ^ (w - 1)) ≤ v) (h1 : v < 2 ^ (w - 1))
    (n : Nat) (hn : (n : Int) = v % (2 * 2 ^ (w - 1))) : n < 2 ^ w ∧ signed (bitsBE w n) = some v := by
  obtain ⟨a, b, c⟩ := signed_fits w hw v h0 h1
  have e : (2 : Int) ^ w = 2 * 2 ^ (w - 1) := by
    obtain ⟨k, rfl⟩ : ∃ k, w = k + 1 := ⟨w - 1, by omega⟩
    rw [Int.pow_succ]; simp; omega
  have hlt : n < 2 ^ w := by have := pow_cast w; omega
  refine ⟨hlt, ?_⟩
  rw [signed_of_unsigned (ne_nil_of_len (by simp; omega)) (unsigned_bitsBE w n hlt)]
  simp only [bitsBE_length]
  rw [hn, c]
  generalize (2 : Int) ^ (w - 1) = P at *
  rw [e]
  by_cases hv : v < 0
  · rw [if_pos hv, if_pos (by omega)]; congr 1; omega
  · rw [if_neg hv, if_neg (by omega)]

/-- C10: `from_signed(v, r)` succeeds exactly when `r` is non-null and
`-2^(n-1) ≤ v < 2^(n-1)`, and then `to_signed()` gives `v` back. -/
theorem C10_from_signed (v : Int) (r : Range) (hr : r.Valid) :
    (0 < r.len → -(2 ^ (r.len - 1)) ≤ v → v < 2 ^ (r.len - 1) →
      ∃ a l, LA.fromSigned v (.range r) "error" = .ok a ∧ a.range = r ∧ Rep a l ∧
        binary l ∧ signed l = some v ∧ ∀ rx rng, (a.toSigned rx rng).1 = .ok v) ∧
    (¬ (0 < r.len ∧ -(2 ^ (r.len - 1)) ≤ v ∧ v < 2 ^ (r.len - 1)) →
      LA.fromSigned v (.range r) "error" = .error .valueError) := by
  constructor
  · intro hl h0 h1
    obtain ⟨a, b, c⟩ := signed_fits r.len hl v h0 h1
    obtain ⟨n, hn⟩ := Int.eq_ofNat_of_zero_le a
    obtain ⟨hlt, hs⟩ := signed_bitsBE r.len hl v h0 h1 n hn.symm
    have hrep := rep_ofNat r hr hl n hlt false
    refine ⟨⟨none, some (n : Int), none, r, false⟩, bitsBE r.len n, ?_, rfl, hrep,
      binary_bitsBE _ _, hs, ?_⟩
    · have a2 : ¬ (r.len = 0) := by omega
      have a3 : ¬ (v < -(2 ^ (r.len - 1)) ∨ 2 ^ (r.len - 1) ≤ v) := by omega
      simp only [LA.fromSigned, LA.reqRange, a2, if_false, a3, hn]
      simp
    · intro rx rng
      obtain ⟨v', h1, h2⟩ := toSigned_some rx rng hrep (ne_nil_of_len (by simp; omega))
        (unsigned_bitsBE _ _ hlt)
      rw [hs] at h1
      rw [h2]; simp at h1; rw [h1]
  · intro hn
    by_cases h1 : r.len = 0
    · simp [LA.fromSigned, LA.reqRange, h1]
    · have : v < -(2 ^ (r.len - 1)) ∨ 2 ^ (r.len - 1) ≤ v := by
        apply Classical.byContradiction; intro hc; exact hn ⟨by omega, by omega, by omega⟩
      simp [LA.fromSigned, LA.reqRange, h1, this]

/-- C10: converting any non-empty 0/1 array to a signed integer and back gives the same elements. -/
theorem C10_roundtrip (a : LA) (l : List Logic) (h : Rep a l) (hb : binary l) (hl : l ≠ [])
    (rx : Option Resolver) (rng : LA.Rng) :
    ∃ v b, (a.toSigned rx rng).1 = .ok v ∧ LA.fromSigned v (.range a.range) "error" = .ok b ∧ Rep b l := by
  have hres : resolvable l := fun x hx => by rcases hb x hx with rfl | rfl <;> rfl
  obtain ⟨n, hn⟩ := Option.isSome_iff_exists.1 ((unsigned_isSome l).2 hres)
  obtain ⟨v, hv, ht⟩ := toSigned_some rx rng h hl hn
  have hlen : 0 < a.range.len := by rw [← h.len]; cases l <;> simp at hl ⊢
  have hs := signed_of_unsigned hl hn
  rw [hv] at hs
  simp only [Option.some.injEq] at hs
  have hlt := unsigned_lt hn
  have e : (2 : Int) ^ l.length = 2 * 2 ^ (l.length - 1) := by
    obtain ⟨k, hk⟩ : ∃ k, l.length = k + 1 := ⟨l.length - 1, by rw [h.len]; omega⟩
    rw [hk, Int.pow_succ]; simp; omega
  have hc := pow_cast l.length
  have hp : (0 : Int) < 2 ^ (l.length - 1) := Int.pow_pos (by omega)
  have hmod : v % (2 * 2 ^ (l.length - 1)) = n := by
    generalize (2 : Int) ^ (l.length - 1) = P at *
    rw [emod_window (by split at hs <;> omega) (by split at hs <;> omega)]
    split at hs <;> split <;> omega
  have hb1 : -(2 ^ (l.length - 1)) ≤ v ∧ v < 2 ^ (l.length - 1) := by
    generalize (2 : Int) ^ (l.length - 1) = P at *
    split at hs <;> omega
  refine ⟨v, ⟨none, some (n : Int), none, a.range, false⟩, ht, ?_, ?_⟩
  · have a2 : ¬ (a.range.len = 0) := by omega
    have a3 : ¬ (v < -(2 ^ (a.range.len - 1)) ∨ 2 ^ (a.range.len - 1) ≤ v) := by
      rw [← h.len]; omega
    rw [h.len] at hmod
    simp only [LA.fromSigned, LA.reqRange, a2, if_false, a3, hmod]
    simp
  · have := rep_ofNat a.range h.valid hlen n (by rw [← h.len]; exact hlt) false
    rwa [← h.len, ← eq_bitsBE hb hn] at this

example : LA.fromSigned (-5) (.int 4) "error" = .ok ⟨none, some 11, none, .mk3 3 .downto 0, false⟩ ∧
    signed (bitsBE 4 11) = some (-5) ∧ LA.fromSigned 8 (.int 4) "error" = .error .valueError := by decide

/-! ## C11 -/

/-- C11: `from_unsigned(..., on_overflow="wrap")` of a non-negative value never raises for a
non-null range and reads back the residue modulo `2^len` in `[0, 2^len)`. -/
theorem C11_wrap_unsigned (v : Int) (r : Range) (hr : r.Valid) (hl : 0 < r.len) (hv : 0 ≤ v) :
    ∃ a u, LA.fromUnsigned v (.range r) "wrap" = .ok a ∧ a.range = r ∧
      (∀ rx rng, (a.toUnsigned rx rng).1 = .ok u) ∧
      0 ≤ u ∧ u < 2 ^ r.len ∧ (2 ^ r.len : Int) ∣ v - u := by
  have hp : (0 : Int) < 2 ^ r.len := Int.pow_pos (by omega)
  have h0 := Int.emod_nonneg v (b := 2 ^ r.len) (by omega)
  have h1 := Int.emod_lt_of_pos v hp
  obtain ⟨n, hn⟩ := Int.eq_ofNat_of_zero_le h0
  have hlt : n < 2 ^ r.len := by have := pow_cast r.len; omega
  have hrep := rep_ofNat r hr hl n hlt false
  refine ⟨⟨none, some (n : Int), none, r, false⟩, n, ?_, rfl, ?_, by omega, by omega, ?_⟩
  · have a1 : ¬ (v < 0) := by omega
    have a2 : ¬ (r.len = 0) := by omega
    simp [LA.fromUnsigned, LA.reqRange, a1, a2, hn]
  · intro rx rng
    exact toUnsigned_some rx rng hrep (ne_nil_of_len (by simp; omega)) (unsigned_bitsBE _ _ hlt)
  · rw [← hn]; exact Int.dvd_self_sub_emod

/-- C11: the same for `from_signed`, for every integer, in `[-2^(len-1), 2^(len-1))`. -/
theorem C11_wrap_signed (v : Int) (r : Range) (hr : r.Valid) (hl : 0 < r.len) :
    ∃ a u, LA.fromSigned v (.range r) "wrap" = .ok a ∧ a.range = r ∧
      (∀ rx rng, (a.toSigned rx rng).1 = .ok u) ∧
      -(2 ^ (r.len - 1)) ≤ u ∧ u < 2 ^ (r.len - 1) ∧ (2 ^ r.len : Int) ∣ v - u := by
  have hp : (0 : Int) < 2 ^ r.len := Int.pow_pos (by omega)
  have h0 := Int.emod_nonneg v (b := 2 ^ r.len) (by omega)
  have h1 := Int.emod_lt_of_pos v hp
  obtain ⟨n, hn⟩ := Int.eq_ofNat_of_zero_le h0
  have hlt : n < 2 ^ r.len := by have := pow_cast r.len; omega
  have hrep := rep_ofNat r hr hl n hlt false
  have hne : bitsBE r.len n ≠ [] := ne_nil_of_len (by simp; omega)
  have hs := signed_of_unsigned hne (unsigned_bitsBE _ _ hlt)
  simp only [bitsBE_length] at hs
  have e : (2 : Int) ^ r.len = 2 * 2 ^ (r.len - 1) := by
    obtain ⟨k, hk⟩ : ∃ k, r.len = k + 1 := ⟨r.len - 1, by omega⟩
    rw [hk, Int.pow_succ]; simp; omega
  refine ⟨⟨none, some (n : Int), none, r, false⟩,
    if (n : Int) ≥ 2 ^ (r.len - 1) then (n : Int) - 2 * 2 ^ (r.len - 1) else n,
    ?_, rfl, ?_, ?_, ?_, ?_⟩
  · have a2 : ¬ (r.len = 0) := by omega
    simp [LA.fromSigned, LA.reqRange, a2, hn]
  · intro rx rng
    obtain ⟨v', h3, h4⟩ := toSigned_some rx rng hrep hne (unsigned_bitsBE _ _ hlt)
    rw [hs] at h3
    rw [h4]; simp at h3 ⊢; rw [h3]
  · have := pow_cast r.len
    have hp' : (0 : Int) < 2 ^ (r.len - 1) := Int.pow_pos (by omega)
    split <;> omega
  · have := pow_cast r.len
    split <;> omega
  · have hd : (2 ^ r.len : Int) ∣ v - n := by rw [← hn]; exact Int.dvd_self_sub_emod
    split
    · have : v - ((n : Int) - 2 * 2 ^ (r.len - 1)) = (v - n) + 2 ^ r.len := by omega
      rw [this]; exact Int.dvd_add hd (Int.dvd_refl _)
    · exact hd

/-- C11: a null range, a negative unsigned value or an unknown `on_overflow` raises `ValueError`. -/
theorem C11_errors (v : Int) (r : Range) (o : String) :
    (r.len = 0 → LA.fromUnsigned v (.range r) o = .error .valueError ∧
      LA.fromSigned v (.range r) o = .error .valueError) ∧
    (v < 0 → LA.fromUnsigned v (.range r) o = .error .valueError) ∧
    (o ≠ "wrap" → o ≠ "error" → LA.fromUnsigned v (.range r) o = .error .valueError ∧
      LA.fromSigned v (.range r) o = .error .valueError) := by
  refine ⟨?_, ?_, ?_⟩
  · intro h; simp [LA.fromUnsigned, LA.fromSigned, LA.reqRange, h]
  · intro h; simp [LA.fromUnsigned, LA.reqRange, h]
  · intro h1 h2
    simp only [LA.fromUnsigned, LA.fromSigned, LA.reqRange, h1, h2, if_false]
    constructor <;> repeat' split
    all_goals rfl

example : LA.fromSigned 12345 (.int 4) "wrap" = .ok ⟨none, some 9, none, .mk3 3 .downto 0, false⟩ ∧
    signed (bitsBE 4 9) = some (-7) ∧ (2 ^ 4 : Int) ∣ 12345 - (-7) := by
  refine ⟨by decide, by decide, ⟨772, by decide⟩⟩

/-! ## C12 -/

/-- C12: `LogicArray(v, r)` for an integer succeeds exactly when `r` is non-null and
`-2^(n-1) ≤ v < 2^n`; the stored bits are `v mod 2^n` and the array equals `v`. -/
theorem C12_int_ctor (v : Int) (r : Range) (hr : r.Valid) :
    (0 < r.len → -(2 ^ (r.len - 1)) ≤ v → v < 2 ^ r.len →
      ∃ a, LA.new (.int v) (.range r) = .ok a ∧ a.range = r ∧
        Rep a (bitsBE r.len (v % 2 ^ r.len).toNat) ∧
        ∀ rx rng, (a.eqInt rx rng v).1 = .ok true) ∧
    (¬ (0 < r.len ∧ -(2 ^ (r.len - 1)) ≤ v ∧ v < 2 ^ r.len) →
      LA.new (.int v) (.range r) = .error .valueError) := by
  have hp : (0 : Int) < 2 ^ r.len := Int.pow_pos (by omega)
  constructor
  · intro hl h0 h1
    have e : (2 : Int) ^ r.len = 2 * 2 ^ (r.len - 1) := by
      obtain ⟨k, hk⟩ : ∃ k, r.len = k + 1 := ⟨r.len - 1, by omega⟩
      rw [hk, Int.pow_succ]; simp; omega
    have hm : v % 2 ^ r.len = if v < 0 then v + 2 ^ r.len else v := by
      have hp' : (0 : Int) < 2 ^ (r.len - 1) := Int.pow_pos (by omega)
      exact emod_window (by omega) h1
    have hm0 := Int.emod_nonneg v (b := 2 ^ r.len) (by omega)
    have hm1 := Int.emod_lt_of_pos v hp
    obtain ⟨n, hn⟩ := Int.eq_ofNat_of_zero_le hm0
    have hlt : n < 2 ^ r.len := by have := pow_cast r.len; omega
    have hrep := rep_ofNat r hr hl n hlt false
    have hne : bitsBE r.len n ≠ [] := ne_nil_of_len (by simp; omega)
    have hu := unsigned_bitsBE r.len n hlt
    have hne0 : ¬ r.len = 0 := by omega
    refine ⟨⟨none, some (n : Int), none, r, false⟩, ?_, rfl, by rw [hn]; exact hrep, ?_⟩
    · by_cases hv : v < 0
      · have a3 : ¬ (v < -((2 : Int) ^ (r.len - 1))) := by omega
        simp only [LA.new, LA.normRange, hne0, if_false, hv, if_true, a3]
        rw [if_pos hv] at hm
        simp; omega
      · have a3 : ¬ (v ≥ 2 ^ r.len) := by omega
        simp only [LA.new, LA.normRange, hne0, if_false, hv, a3]
        rw [if_neg hv] at hm
        simp; omega
    · intro rx rng
      unfold LA.eqInt
      have : ¬ (LA.len ⟨none, some (n : Int), none, r, false⟩ = 0) := hne0
      rw [if_neg this]
      by_cases hv : v < 0
      · rw [if_pos hv]
        obtain ⟨v', h3, h4⟩ := toSigned_some rx rng hrep hne hu
        rw [signed_of_unsigned hne hu] at h3
        rw [if_pos hv] at hm
        simp only [bitsBE_length, Option.some.injEq] at h3
        have hv' : v' = v := by
          rw [← h3, if_pos (by omega)]; omega
        generalize LA.toSigned rx rng ⟨none, some (n : Int), none, r, false⟩ = p at h4
        obtain ⟨q, a', rng'⟩ := p
        simp only at h4
        subst h4
        simp [hv']
      · rw [if_neg hv]
        have h4 := toUnsigned_some rx rng hrep hne hu
        rw [if_neg hv] at hm
        generalize LA.toUnsigned rx rng ⟨none, some (n : Int), none, r, false⟩ = p at h4
        obtain ⟨q, a', rng'⟩ := p
        simp only at h4
        subst h4
        simp; omega
  · intro hn
    by_cases h1 : r.len = 0
    · simp [LA.new, LA.normRange, h1]
    · by_cases hv : v < 0
      · have : v < -((2 : Int) ^ (r.len - 1)) := by
          apply Classical.byContradiction; intro hc; exact hn ⟨by omega, by omega, by omega⟩
        simp [LA.new, LA.normRange, h1, hv, this]
      · have hp' : (0 : Int) < 2 ^ (r.len - 1) := Int.pow_pos (by omega)
        have : v ≥ 2 ^ r.len := by
          apply Classical.byContradiction; intro hc; exact hn ⟨by omega, by omega, by omega⟩
        simp [LA.new, LA.normRange, h1, hv, this]

/-- C12: an integer without a range raises `TypeError`. -/
theorem C12_no_range (v : Int) : LA.new (.int v) .none = .error .typeError := rfl

example : LA.new (.int (-3)) (.int 4) = .ok ⟨none, some 13, none, .mk3 3 .downto 0, false⟩ ∧
    LA.new (.int 13) (.int 4) = .ok ⟨none, some 13, none, .mk3 3 .downto 0, false⟩ ∧
    LA.new (.int (-9)) (.int 4) = .error .valueError := by decide

/-! ## C13 -/

/-- C13: a string is accepted exactly when, underscores removed and upper-cased, it only contains
the nine literals; it then holds the element denoted by each character in order. -/
theorem C13_str_ctor (s : PyStr) :
    ((∀ c ∈ LA.normStr s, c ∈ "UX01ZWLH-".toList) →
      ∃ a l, LA.new (.str s) .none = .ok a ∧ Rep a l ∧ chrs l = LA.normStr s ∧
        a.range = .mk3 ((l.length : Int) - 1) .downto 0 ∧ a.getStr.1 = .ok (LA.normStr s) ∧
        a.iter.1 = .ok l ∧ a.reversed.1 = .ok l.reverse) ∧
    ((∃ c ∈ LA.normStr s, c ∉ "UX01ZWLH-".toList) → LA.new (.str s) .none = .error .valueError) := by
  have hset : "UX01ZWLH-".toList = LA.strLiterals := by decide
  rw [hset]
  constructor
  · intro h
    have hall : (LA.normStr s).all (fun c => decide (c ∈ LA.strLiterals)) = true := by
      simpa [List.all_eq_true] using h
    obtain ⟨l, hl⟩ := exists_chrs _ hall
    have hlen : l.length = (LA.defaultRange (LA.normStr s).length).len := by
      rw [hl]; simp only [LA.defaultRange, Range.len_downto, chrs_length]; omega
    have hrep := rep_ofStr l (LA.defaultRange (LA.normStr s).length) (Range.valid_mk3 _ _ _) hlen false
    refine ⟨⟨none, none, some (chrs l), LA.defaultRange (LA.normStr s).length, false⟩, l, ?_, hrep,
      hl.symm, by simp [hl, LA.defaultRange], by rw [hl]; exact (getStr_rep hrep).1,
      (getArray_rep hrep).1, ?_⟩
    · simp only [LA.new, LA.normRange, hall, if_true]
      rw [hl]
    · unfold LA.reversed
      have := (getArray_rep hrep).1
      generalize LA.getArray _ = p at this ⊢
      obtain ⟨q, a'⟩ := p
      simp only at this
      subst this
      rfl
  · rintro ⟨c, hc, hnc⟩
    have : (LA.normStr s).all (fun c => decide (c ∈ LA.strLiterals)) = false := by
      rw [List.all_eq_false]; exact ⟨c, hc, by simpa using hnc⟩
    simp [LA.new, LA.normRange, this]

/-- C13: with a range, the length must match; the result is otherwise the same. -/
theorem C13_str_range (s : PyStr) (r : Range) (a : LA) (h : LA.new (.str s) .none = .ok a) :
    LA.new (.str s) (.range r) =
      if (LA.normStr s).length = r.len then .ok { a with range := r } else .error .valueError := by
  simp only [LA.new, LA.normRange] at h ⊢
  split at h
  · rename_i hall
    simp only [hall, if_true]
    simp at h
    subst h
    by_cases hl : (LA.normStr s).length = r.len <;> simp [hl]
  · simp at h

/-- C13: printing and re-reading gives the same elements: `LogicArray(str(a)) == a`. -/
theorem C13_roundtrip (a : LA) (l : List Logic) (h : Rep a l) :
    ∃ s b, a.getStr.1 = .ok s ∧ LA.new (.str s) (.range a.range) = .ok b ∧ Rep b l ∧
      (b.eqObj a).1 = .ok true := by
  obtain ⟨h1, h2, -⟩ := getStr_rep h
  have hrep := rep_ofStr l a.range h.valid h.len false
  refine ⟨chrs l, ⟨none, none, some (chrs l), a.range, false⟩, h1, ?_, hrep, ?_⟩
  · simp only [LA.new, LA.normRange, normStr_chrs, chrs_literals, if_true]
    simp [h.len]
  · unfold LA.eqObj
    have : LA.len ⟨none, none, some (chrs l), a.range, false⟩ = a.len := rfl
    simp only [this, ne_eq, not_true, if_false]
    cases hs : a.str with
    | some t => simp [h.str t hs]
    | none =>
      simp only
      generalize a.getStr = p at h1
      obtain ⟨q, a'⟩ := p
      simp only at h1
      subst h1
      simp

example : LA.new (.str "z1_0x".toList) .none =
    .ok ⟨none, none, some "Z10X".toList, .mk3 3 .downto 0, false⟩ ∧
    LA.new (.str "012".toList) .none = .error .valueError := by decide

/-! ## C14 -/

/-- C14 at full strength: without a configured resolver `to_unsigned` succeeds exactly for
non-empty resolvable arrays, with the positional value. -/
def C14_full : Prop := ∀ (a : LA) (l : List Logic) (rng : LA.Rng), Rep a l →
  (∀ n, (l ≠ [] ∧ unsigned l = some n → (a.toUnsigned none rng).1 = .ok (n : Int))) ∧
  (¬ (l ≠ [] ∧ resolvable l) → (a.toUnsigned none rng).1 = .error .valueError)

/-- The code violates it: `LogicArray("-101").to_unsigned()` returns -5, because `int(s, 2)`
accepts the don't-care character `-` as a sign. -/
theorem C14_counterexample : ¬ C14_full := by
  intro h
  have hr := rep_ofStr [D, F1, F0, F1] (.mk3 3 .downto 0) (Range.valid_mk3 _ _ _) (by decide) false
  have := (h _ _ (fun _ => false) hr).2 (by
    rintro ⟨-, hr⟩
    exact absurd (hr D (by simp)) (by simp [boolVal]))
  revert this
  decide

/-- C14 (partial): the claim for every array whose leftmost element is not `-`. -/
theorem C14_to_unsigned_partial (a : LA) (l : List Logic) (rng : LA.Rng) (h : Rep a l)
    (hd : l.head? ≠ some D) :
    (∀ n, (l ≠ [] ∧ unsigned l = some n → (a.toUnsigned none rng).1 = .ok (n : Int))) ∧
    (¬ (l ≠ [] ∧ resolvable l) → (a.toUnsigned none rng).1 = .error .valueError) := by
  constructor
  · rintro n ⟨hl, hn⟩
    exact toUnsigned_some none rng h hl hn
  · intro hno
    unfold LA.toUnsigned
    by_cases hl : l = []
    · rw [if_pos (by rw [h.range_len, hl]; rfl)]
    · have : a.len ≠ 0 := by rw [h.range_len]; cases l <;> simp at hl ⊢
      rw [if_neg this, (getInt_rep none rng h).1]
      have hu : unsigned l = none := by
        cases hu : unsigned l with
        | none => rfl
        | some n => exact absurd ⟨hl, (unsigned_isSome l).1 (by simp [hu])⟩ hno
      simp [listInt, pyInt_chrs l hl hd, hu]

/-- C14: exactly what happens in the remaining case (leftmost element `-`): the rest is read as a
negated numeral. -/
theorem C14_dash (a : LA) (l : List Logic) (rng : LA.Rng) (h : Rep a (D :: l)) :
    (a.toUnsigned none rng).1 =
      match (if l = [] then none else unsigned l) with
      | some n => .ok (-(n : Int))
      | none => .error .valueError := by
  unfold LA.toUnsigned
  have : a.len ≠ 0 := by rw [h.range_len]; simp
  rw [if_neg this, (getInt_rep none rng h).1]
  simp only [listInt, pyInt_chrs_dash]
  by_cases hl : l = []
  · simp [hl]
  · simp only [hl, if_false]
    cases unsigned l <;> simp

/-- C14: `is_resolvable` is exactly "every element is 0, 1, L or H". -/
theorem C14_is_resolvable (a : LA) (l : List Logic) (h : Rep a l) :
    ∃ b, a.isResolvable.1 = .ok b ∧ (b = true ↔ resolvable l) := by
  refine ⟨l.all Logic.isResolvable, ?_, ?_⟩
  · unfold LA.isResolvable
    have := (getArray_rep h).1
    generalize a.getArray = p at this
    obtain ⟨q, a'⟩ := p
    simp only at this
    subst this
    rfl
  · rw [List.all_eq_true]
    apply forall_congr'
    intro x
    apply imp_congr_right
    intro _
    cases x <;> simp [Logic.isResolvable, code, boolVal]

/-- C14: `to_signed` reads two's complement. -/
theorem C14_to_signed (a : LA) (l : List Logic) (rx : Option Resolver) (rng : LA.Rng) (h : Rep a l)
    (hl : l ≠ []) (hr : resolvable l) :
    ∃ v, signed l = some v ∧ (a.toSigned rx rng).1 = .ok v := by
  obtain ⟨n, hn⟩ := Option.isSome_iff_exists.1 ((unsigned_isSome l).2 hr)
  exact toSigned_some rx rng h hl hn

example : Rep ⟨none, none, some "1H0".toList, .mk3 2 .downto 0, false⟩ [F1, H, F0] ∧
    unsigned [F1, H, F0] = some 6 ∧ signed [F1, H, F0] = some (-2) ∧ [F1, H, F0].head? ≠ some D :=
  ⟨rep_ofStr [F1, H, F0] _ (Range.valid_mk3 _ _ _) (by decide) false, by decide, by decide, by decide⟩

end Verif
