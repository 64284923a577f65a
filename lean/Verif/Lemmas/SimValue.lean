import Verif.Spec.SimValue
import Verif.Lemmas.HandleValue
namespace Verif.SimVal
open Verif Verif.Hdl Verif.Spec Verif.SimSpec

theorem toI32_id (v : Int) (h : is32 v) : toI32 v = v := by
  unfold is32 at h; unfold toI32; omega

theorem toI32_is32 (v : Int) : is32 (toI32 v) := by
  unfold is32 toI32; omega

/-- The value modulo `2 ^ n`. -/
theorem toI32_mod (v : Int) (n : Nat) (h : n ≤ 32) : toI32 v % 2 ^ n = v % 2 ^ n := by
  have e : (2 : Int) ^ 32 = 2 ^ n * 2 ^ (32 - n) := by
    rw [← Int.pow_add]; congr 1; omega
  have h1 : toI32 v = v + 2 ^ n * (2 ^ (32 - n) * (-((v + 2 ^ 31) / 2 ^ 32))) := by
    unfold toI32
    rw [← Int.mul_assoc, ← e]
    omega
  rw [h1, Int.add_mul_emod_self_left]

theorem bitSet_mod (v : Int) (n i : Nat) (h : i < n) : bitSet (v % 2 ^ n) i = bitSet v i := by
  have e : (2 : Int) ^ n = 2 ^ i * (2 * 2 ^ (n - i - 1)) := by
    rw [show (2 : Int) * 2 ^ (n - i - 1) = 2 ^ (n - i) by rw [show n - i = (n - i - 1) + 1 by omega, Int.pow_succ]; simp [Int.mul_comm],
      ← Int.pow_add]; congr 1; omega
  have hp : (0 : Int) < 2 ^ i := two_pow_pos i
  have h1 : v = v % 2 ^ n + 2 ^ i * (2 * (2 ^ (n - i - 1) * (v / 2 ^ n))) := by
    have := Int.emod_add_mul_ediv v (2 ^ n)
    rw [← this]
    rw [show (v % 2 ^ n + 2 ^ n * (v / 2 ^ n)) % 2 ^ n = v % 2 ^ n by
      rw [Int.add_mul_emod_self_left, Int.emod_emod]]
    rw [show (v % 2 ^ n + 2 ^ n * (v / 2 ^ n)) = v from this]
    grind
  unfold bitSet
  generalize hq : v % 2 ^ n = m at *
  rw [h1, Int.add_mul_ediv_left _ _ (by omega)]
  congr 1
  omega

theorem bitSet_nat (m i : Nat) : bitSet (m : Int) i = m.testBit i := by
  unfold bitSet
  rw [Nat.testBit_eq_decide_div_mod_eq]
  have : (m : Int) / 2 ^ i % 2 = ((m / 2 ^ i % 2 : Nat) : Int) := by simp
  rw [this]
  rw [Bool.eq_iff_iff]
  simp
  omega

theorem bitSet_toNat (v : Int) (n i : Nat) (h : i < n) : (v % 2 ^ n).toNat.testBit i = bitSet v i := by
  rw [← bitSet_nat, Int.toNat_of_nonneg (Int.emod_nonneg _ (by have := two_pow_pos n; omega)), bitSet_mod v n i h]

theorem bitSet_toI32 (v : Int) (i : Nat) (h : i < 32) : bitSet (toI32 v) i = bitSet v i := by
  rw [← bitSet_mod (toI32 v) 32 i h, toI32_mod v 32 (by omega), bitSet_mod v 32 i h]

theorem bitsOfInt_eq (n : Nat) (v : Int) :
    bitsOfInt n v = (List.range n).map fun k => if bitSet v (n - 1 - k) then .F1 else .F0 := by
  unfold bitsOfInt bitsBE
  apply List.map_congr_left
  intro k hk
  rw [List.mem_range] at hk
  rw [bitSet_toNat v n _ (by omega)]

/-- The loop over bits writes bit `n - 1 - k` to place `k`. -/
theorem putBits_eq (z o n : Nat) (v : Int) (buf : List Nat) (hb : buf.length = n) :
    putBits z o n v buf = (List.range n).map fun k => if bitSet v (n - 1 - k) then o else z := by
  have key : ∀ m, m ≤ n →
      let r := (List.range m).foldl (fun b i => b.set (n - i - 1) (if bitSet v i then o else z)) buf
      r.length = n ∧ ∀ k, k < n → n - 1 - k < m → r[k]? = some (if bitSet v (n - 1 - k) then o else z) := by
    intro m
    induction m with
    | zero => intro _; exact ⟨by simpa using hb, by intro k _ h; omega⟩
    | succ m ih =>
      intro hm
      obtain ⟨h1, h2⟩ := ih (by omega)
      rw [List.range_succ, List.foldl_append]
      simp only [List.foldl_cons, List.foldl_nil]
      refine ⟨by rw [List.length_set]; exact h1, ?_⟩
      intro k hk hkm
      by_cases he : n - 1 - k = m
      · have : n - m - 1 = k := by omega
        rw [this, List.getElem?_set_self (by omega), he]
      · rw [List.getElem?_set_ne (by omega)]
        exact h2 k hk (by omega)
  obtain ⟨h1, h2⟩ := key n (Nat.le_refl _)
  apply List.ext_getElem?
  intro k
  by_cases hk : k < n
  · rw [putBits, h2 k hk (by omega)]
    simp [hk]
  · rw [putBits, List.getElem?_eq_none (by omega), List.getElem?_eq_none (by simp; omega)]

/-- The loop over characters writes all of them. -/
theorem putChars_eq (f : Char → Nat) (s : PyStr) (buf : List Nat) (h : buf.length = s.length) :
    putChars f s 0 buf = s.map f := by
  have key : ∀ (s : PyStr) (i : Nat) (buf : List Nat), buf.length = i + s.length →
      putChars f s i buf = buf.take i ++ s.map f := by
    intro s
    induction s with
    | nil => intro i buf h; simp [putChars]; rw [List.take_of_length_le]; simp at h; omega
    | cons c s ih =>
      intro i buf h
      simp only [List.length_cons] at h
      rw [putChars, ih (i + 1) _ (by simp; omega)]
      rw [List.map_cons]
      rw [List.take_add_one, List.take_set_of_le (by omega), List.getElem?_set_self (by omega)]
      simp
  simpa using key s 0 buf (by omega)

theorem length_bitsOfInt (n : Nat) (v : Int) : (bitsOfInt n v).length = n := by simp [bitsOfInt]

theorem chrs_lit (l : List Logic) : (chrs l).any (fun c => !decide (c ∈ LA.strLiterals)) = false := by
  have := chrs_literals l
  rw [List.any_eq_false]
  rw [List.all_eq_true] at this
  intro x hx
  simpa using this x hx

/-- What Python hands over for a value that means something. -/
theorem larray_datum (n : Nat) (hn : 0 < n) (v : PyVal) (l : List Logic) (h : meant n v = some l) :
    ∃ d, leafDatum (.larray n) v = .ok d ∧ l.length = n ∧
      ((∃ w, d = .int w ∧ n ≤ 32 ∧ l = bitsOfInt n w) ∨ d = .bin (chrs l)) := by
  cases v with
  | int v =>
    simp only [meant] at h
    split at h
    · rename_i hf
      cases h
      have hr : (geSignedMin n v && leUnsignedMax n v) = true := by
        rw [Bool.and_eq_true, geSignedMin_iff n hn, leUnsignedMax_iff]; exact hf
      simp only [leafDatum, larrayInt, hr, Bool.not_true, Bool.false_eq_true, if_false]
      by_cases hs : n ≤ 32
      · exact ⟨.int v, by simp [hs], length_bitsOfInt n v, .inl ⟨v, rfl, hs, rfl⟩⟩
      · have hw := wrap_eq n v (by have := pow_le n; omega) hf.2
        simp only [hs, if_false, hw]
        rw [formatBin_length n hn v]
        simp only [ne_eq, not_true_eq_false, if_false]
        exact ⟨_, rfl, length_bitsOfInt n v, .inr (by rw [formatBin_mod n hn v])⟩
    · cases h
  | str s =>
    simp only [meant] at h
    have hu := elements_upper (s.filter (· ≠ '_'))
    cases he : elementsOf s with
    | none => simp [he] at h
    | some l' =>
      rw [he] at h
      simp only [Option.ite_none_right_eq_some, Option.some.injEq] at h
      obtain ⟨hl, rfl⟩ := h
      have e : LA.normStr s = chrs l' := hu.1 l' he
      exact ⟨.bin (chrs l'), by simp only [leafDatum, e, chrs_lit]; simp [larrayStr, hl], hl, .inr rfl⟩
  | larr l' =>
    simp only [meant, Option.ite_none_right_eq_some, Option.some.injEq] at h
    obtain ⟨hl, rfl⟩ := h
    exact ⟨.bin (chrs l'), by simp [leafDatum, larrayStr, hl, chrs], hl, .inr rfl⟩
  | logic o =>
    simp only [meant, Option.ite_none_right_eq_some, Option.some.injEq] at h
    obtain ⟨rfl, rfl⟩ := h
    exact ⟨.bin (chrs [o.v]), by simp [leafDatum, larrayStr, chrs], rfl, .inr rfl⟩
  | _ => simp [meant] at h

/-- Values that mean nothing are refused. -/
theorem larray_reject (n : Nat) (hn : 0 < n) (v : PyVal) (h : meant n v = none) :
    ∃ e, leafDatum (.larray n) v = .error e := by
  cases v with
  | int v =>
    simp only [meant, ite_eq_right_iff, reduceCtorEq, imp_false] at h
    exact ⟨_, larrayInt_error n hn v h⟩
  | str s =>
    have hu := elements_upper (s.filter (· ≠ '_'))
    simp only [meant] at h
    cases he : elementsOf s with
    | none =>
      have : (LA.normStr s).any (fun c => !decide (c ∈ LA.strLiterals)) = true := hu.2 he
      exact ⟨_, by simp only [leafDatum, this, if_true]; rfl⟩
    | some l' =>
      rw [he] at h
      simp only [ite_eq_right_iff, reduceCtorEq, imp_false] at h
      have e : LA.normStr s = chrs l' := hu.1 l' he
      exact ⟨.valueError, by simp only [leafDatum, e, chrs_lit]; simp [larrayStr, h]⟩
  | larr l' =>
    simp only [meant, ite_eq_right_iff, reduceCtorEq, imp_false] at h
    exact ⟨.valueError, by simp [leafDatum, larrayStr, h]⟩
  | logic o =>
    simp only [meant, ite_eq_right_iff, reduceCtorEq, imp_false] at h
    exact ⟨.valueError, by simp [leafDatum, larrayStr]; omega⟩
  | _ => exact ⟨_, rfl⟩

theorem scalar_datum (v : PyVal) (x : Logic) (h : meantScalar v = some x) :
    leafDatum .logic v = .ok (.bin [x.chr]) := by
  cases v with
  | int v =>
    simp only [meantScalar] at h
    split at h
    · rename_i hv; cases h; subst hv; rfl
    · split at h
      · rename_i hv; cases h; subst hv; rfl
      · cases h
  | str s =>
    simp only [meantScalar] at h
    simp [leafDatum, Logic.new, h, Logic.Cls.allows, bind, Except.bind]
  | larr l =>
    match l, h with
    | [y], h => simp only [meantScalar, Option.some.injEq] at h; subst h; simp [leafDatum]
    | [], h => simp [meantScalar] at h
    | _ :: _ :: _, h => simp [meantScalar] at h
  | logic o => simp only [meantScalar, Option.some.injEq] at h; subst h; rfl
  | _ => simp [meantScalar] at h

theorem scalar_reject (v : PyVal) (h : meantScalar v = none) : ∃ e, leafDatum .logic v = .error e := by
  cases v with
  | int v =>
    simp only [meantScalar] at h
    have : Logic.ofLiteralInt v = none := by
      unfold Logic.ofLiteralInt; exact h
    exact ⟨.valueError, by simp [leafDatum, Logic.new, this, bind, Except.bind]⟩
  | str s =>
    simp only [meantScalar] at h
    exact ⟨.valueError, by simp [leafDatum, Logic.new, h, bind, Except.bind]⟩
  | larr l =>
    match l, h with
    | [y], h => simp [meantScalar] at h
    | [], h => exact ⟨.valueError, by simp [leafDatum]⟩
    | _ :: _ :: _, h => exact ⟨.valueError, by simp [leafDatum]⟩
  | logic o => simp [meantScalar] at h
  | _ => exact ⟨_, rfl⟩

theorem chr2vhpi_chr (x : Logic) : chr2vhpi x.chr = position x := by cases x <;> rfl

theorem enumMap_std (x : Logic) : enumMap stdLits x.chr = position x := by cases x <;> decide +kernel

theorem enumMap_bit (x : Logic) : enumMap bitLits x.chr = bitPosition x := by cases x <;> decide +kernel

theorem all_position (x : Logic) : Logic.all[position x]? = some x := by cases x <;> rfl

theorem litOf_std (x : Logic) : litOf stdLits (position x) = some x := by cases x <;> decide +kernel

theorem litOf_bit (x : Logic) (h : x = .F0 ∨ x = .F1) : litOf bitLits (bitPosition x) = some x := by
  rcases h with rfl | rfl <;> decide +kernel

theorem filterMap_all (l : List Logic) : (l.map position).filterMap (Logic.all[·]?) = l := by
  induction l with
  | nil => rfl
  | cons x l ih => simp [all_position, ih]

theorem filterMap_std (l : List Logic) : (l.map position).filterMap (litOf stdLits) = l := by
  induction l with
  | nil => rfl
  | cons x l ih => simp [litOf_std, ih]

theorem filterMap_bit (l : List Logic) (h : ∀ x ∈ l, x = .F0 ∨ x = .F1) :
    (l.map bitPosition).filterMap (litOf bitLits) = l := by
  induction l with
  | nil => rfl
  | cons x l ih =>
    simp only [List.mem_cons, forall_eq_or_imp] at h
    simp [litOf_bit x h.1, ih h.2]

/-- Bits of an int of at most 32 bits, cut to 32. -/
theorem bits_toI32 {α} (n : Nat) (hn : n ≤ 32) (v : Int) (f : Bool → α) :
    ((List.range n).map fun k => f (bitSet (toI32 v) (n - 1 - k))) = (List.range n).map fun k => f (bitSet v (n - 1 - k)) := by
  apply List.map_congr_left
  intro k hk
  rw [List.mem_range] at hk
  rw [bitSet_toI32 v _ (by omega)]

/-- The loop over the bits of an int gives the places of the elements it means. -/
theorem putBits_meant (pos : Logic → Nat) (n : Nat) (hn : n ≤ 32) (v : Int) (buf : List Nat) (hb : buf.length = n) :
    putBits (pos .F0) (pos .F1) n (toI32 v) buf = (bitsOfInt n v).map pos := by
  rw [putBits_eq _ _ _ _ _ hb, bits_toI32 n hn v (fun b => if b = true then pos .F1 else pos .F0), bitsOfInt_eq,
    List.map_map]
  apply List.map_congr_left
  intro k _
  simp only [Function.comp]
  split <;> rfl

theorem range_reverse_map {α} (n : Nat) (f : Nat → α) :
    (List.range n).reverse.map f = (List.range n).map fun k => f (n - 1 - k) := by
  apply List.ext_getElem
  · simp
  · intro i h1 h2
    simp [List.getElem_reverse]

/-- The text of forced bits. -/
theorem forceBits_meant (n : Nat) (hn : n ≤ 32) (v : Int) :
    ((List.range n).reverse.map fun i => if bitSet (toI32 v) i then '1' else '0') = chrs (bitsOfInt n v) := by
  rw [range_reverse_map, bits_toI32 n hn v (fun b => if b = true then '1' else '0'), bitsOfInt_eq, chrs,
    List.map_map]
  apply List.map_congr_left
  intro k _
  simp only [Function.comp]
  split <;> rfl

theorem putChars_meant (f : Char → Nat) (pos : Logic → Nat) (hf : ∀ x : Logic, f x.chr = pos x) (l : List Logic)
    (buf : List Nat) (hb : buf.length = l.length) : putChars f (chrs l) 0 buf = l.map pos := by
  rw [putChars_eq _ _ _ (by simp [chrs, hb]), chrs, List.map_map]
  apply List.map_congr_left
  intro x _
  exact hf x

theorem length_chrs (l : List Logic) : (chrs l).length = l.length := by simp [chrs]

end Verif.SimVal
