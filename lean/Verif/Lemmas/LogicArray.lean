import Verif.Spec.LogicArray
import Verif.Lemmas.Array
namespace Verif
open Spec Logic

/-! ## Numerals -/

theorem bitsBE_succ (w n : Nat) :
    bitsBE (w + 1) n = bitsBE w (n / 2) ++ [if n % 2 = 1 then F1 else F0] := by
  unfold bitsBE
  rw [List.range_succ, List.map_append, List.map_singleton]
  congr 1
  · apply List.map_congr_left
    intro i hi
    rw [List.mem_range] at hi
    have : w + 1 - 1 - i = (w - 1 - i) + 1 := by omega
    rw [this, Nat.testBit_succ]
  · have : w + 1 - 1 - w = 0 := by omega
    rw [this, Nat.testBit_zero]
    simp

@[simp] theorem bitsBE_length (w n : Nat) : (bitsBE w n).length = w := by simp [bitsBE]

theorem binary_bitsBE (w n : Nat) : binary (bitsBE w n) := by
  intro x hx
  simp only [bitsBE, List.mem_map] at hx
  obtain ⟨i, _, rfl⟩ := hx
  split <;> simp

theorem unsigned_append (l : List Logic) (x : Logic) :
    unsigned (l ++ [x]) = (do let v ← unsigned l; let b ← bit x; some (2 * v + b)) := by
  induction l with
  | nil => simp [unsigned]
  | cons y ys ih =>
    simp only [List.cons_append, unsigned, ih]
    cases bit y <;> cases unsigned ys <;> cases bit x <;> simp [Nat.pow_succ]
    grind

theorem unsigned_bitsBE (w n : Nat) (h : n < 2 ^ w) : unsigned (bitsBE w n) = some n := by
  induction w generalizing n with
  | zero => simp at h; simp [h, bitsBE, unsigned]
  | succ w ih =>
    rw [bitsBE_succ, unsigned_append, ih (n / 2) (by rw [Nat.pow_succ] at h; omega)]
    by_cases hm : n % 2 = 1
    · simp [hm, bit, boolVal]; omega
    · simp [hm, bit, boolVal]; omega

theorem unsigned_lt {l : List Logic} {n : Nat} (h : unsigned l = some n) : n < 2 ^ l.length := by
  induction l generalizing n with
  | nil => simp [unsigned] at h; simp [← h]
  | cons x xs ih =>
    simp only [unsigned] at h
    cases hb : bit x with
    | none => simp [hb] at h
    | some b =>
      cases hu : unsigned xs with
      | none => simp [hb, hu] at h
      | some v =>
        simp [hb, hu] at h
        have := ih hu
        have hb1 : b ≤ 1 := by
          unfold bit at hb
          cases hv : boolVal x with
          | none => simp [hv] at hb
          | some c => simp [hv] at hb; cases c <;> simp at hb <;> omega
        have : b * 2 ^ xs.length ≤ 1 * 2 ^ xs.length := Nat.mul_le_mul_right _ hb1
        simp only [List.length_cons, Nat.pow_succ]
        omega

theorem unsigned_isSome (l : List Logic) : (unsigned l).isSome ↔ resolvable l := by
  induction l with
  | nil => simp [unsigned, resolvable]
  | cons x xs ih =>
    simp only [resolvable, List.mem_cons, forall_eq_or_imp] at ih ⊢
    rw [← ih]
    simp only [unsigned, bit]
    cases boolVal x <;> cases unsigned xs <;> simp

/-- A binary list is determined by its length and value. -/
theorem eq_bitsBE {l : List Logic} {n : Nat} (hb : binary l) (h : unsigned l = some n) :
    l = bitsBE l.length n := by
  suffices H : ∀ (k : Nat) (l : List Logic) (n : Nat), l.length = k → binary l → unsigned l = some n →
      l = bitsBE l.length n from H _ l n rfl hb h
  intro k
  induction k with
  | zero => intro l n hk _ _; simp at hk; subst hk; simp [bitsBE]
  | succ k ih =>
    intro l n hk hb h
    obtain ⟨l', x, rfl⟩ : ∃ l' x, l = l' ++ [x] := by
      refine ⟨l.dropLast, l.getLast (by intro hn; simp [hn] at hk), ?_⟩
      exact (List.dropLast_concat_getLast _).symm
    simp at hk
    rw [unsigned_append] at h
    cases hu : unsigned l' with
    | none => simp [hu] at h
    | some v =>
      have hx := hb x (by simp)
      have hl' := ih l' v hk (fun y hy => hb y (by simp [hy])) hu
      have : l'.length + 1 = (l' ++ [x]).length := by simp
      rw [← this, bitsBE_succ]
      rcases hx with rfl | rfl <;> simp [hu, bit, boolVal] at h
      · have h1 : n / 2 = v := by omega
        have h2 : n % 2 ≠ 1 := by omega
        simp [h1, h2, ← hl']
      · have h1 : n / 2 = v := by omega
        have h2 : n % 2 = 1 := by omega
        simp [h1, h2, ← hl']

/-! ## Printing -/

theorem zeroPad_aux (w n : Nat) (h : n < 2 ^ w) : zeroPad w (binDigitsAux n) = chrs (bitsBE w n) := by
  induction w generalizing n with
  | zero => simp at h; subst h; simp [binDigitsAux, zeroPad, bitsBE, chrs]
  | succ w ih =>
    rw [bitsBE_succ]
    have ih' := ih (n / 2) (by rw [Nat.pow_succ] at h; omega)
    rw [binDigitsAux]
    by_cases hn : n = 0
    · subst hn
      simp only [Nat.zero_div] at ih'
      rw [binDigitsAux] at ih'
      simp only [dite_true, zeroPad, List.length_nil, Nat.sub_zero, List.append_nil] at ih' ⊢
      rw [List.replicate_succ', ih']
      simp [chrs, chr]
    · simp only [hn, dite_false]
      have : zeroPad (w + 1) (binDigitsAux (n / 2) ++ [bitChar (n % 2 = 1)]) =
          zeroPad w (binDigitsAux (n / 2)) ++ [bitChar (n % 2 = 1)] := by
        simp [zeroPad]
      rw [this, ih']
      by_cases hm : n % 2 = 1 <;> simp [chrs, hm, bitChar, chr]

theorem zeroPad_binDigits (w n : Nat) (hw : 0 < w) (h : n < 2 ^ w) :
    zeroPad w (binDigits n) = chrs (bitsBE w n) := by
  rw [← zeroPad_aux w n h]
  unfold binDigits
  by_cases hn : n = 0
  · subst hn
    simp only [if_true]
    rw [binDigitsAux]
    simp only [dite_true, zeroPad, List.length_nil, Nat.sub_zero, List.append_nil]
    obtain ⟨k, rfl⟩ : ∃ k, w = k + 1 := ⟨w - 1, by omega⟩
    rw [List.replicate_succ']
    simp
  · simp [hn]

theorem pyFormatBin_nat (w n : Nat) (hw : 0 < w) (h : n < 2 ^ w) :
    pyFormatBin w (n : Int) = chrs (bitsBE w n) := by
  unfold pyFormatBin
  have : ¬ ((n : Int) < 0) := by omega
  simp only [this, if_false, Int.toNat_natCast]
  exact zeroPad_binDigits w n hw h

/-! ## Parsing -/

theorem binDigit_lh (x : Logic) : binDigit (LA.lhTable x.chr) = bit x := by cases x <;> rfl

theorem parse_chrs (l : List Logic) (acc : Nat) :
    parseBinDigits ((chrs l).map LA.lhTable) acc =
      (unsigned l).map fun v => acc * 2 ^ l.length + v := by
  induction l generalizing acc with
  | nil => simp [chrs, parseBinDigits, unsigned]
  | cons x xs ih =>
    simp only [chrs, List.map_cons, parseBinDigits, binDigit_lh, unsigned] at ih ⊢
    cases hb : bit x with
    | none => simp
    | some b =>
      simp only [ih]
      cases unsigned xs with
      | none => simp
      | some v => simp [Nat.pow_succ]; grind

theorem parseBinNat_chrs (l : List Logic) (h : l ≠ []) :
    parseBinNat ((chrs l).map LA.lhTable) = unsigned l := by
  cases l with
  | nil => exact absurd rfl h
  | cons x xs =>
    have := parse_chrs (x :: xs) 0
    simp only [Nat.zero_mul, Nat.zero_add, Option.map_id'] at this
    simpa [parseBinNat, chrs] using this

/-- `int(s, 2)` of a list not starting with `-`. -/
theorem pyInt_chrs (l : List Logic) (h : l ≠ []) (hd : l.head? ≠ some D) :
    pyIntBase2 ((chrs l).map LA.lhTable) =
      match unsigned l with | some n => .ok (n : Int) | none => .error .valueError := by
  have hp := parseBinNat_chrs l h
  cases l with
  | nil => exact absurd rfl h
  | cons x xs =>
    simp only [chrs, List.map_cons] at hp ⊢
    cases x <;> simp [chr, LA.lhTable] at hp hd ⊢ <;> simp [pyIntBase2, hp] <;>
      cases unsigned _ <;> rfl

/-- `int(s, 2)` of a list starting with `-`: the minus sign is accepted. -/
theorem pyInt_chrs_dash (l : List Logic) :
    pyIntBase2 ((chrs (D :: l)).map LA.lhTable) =
      if l = [] then .error .valueError
      else match unsigned l with | some n => .ok (-(n : Int)) | none => .error .valueError := by
  by_cases hl : l = []
  · subst hl; rfl
  · have hp := parseBinNat_chrs l hl
    simp only [chrs, List.map_cons] at hp ⊢
    have hc : LA.lhTable D.chr = '-' := by decide
    rw [hc]
    simp only [pyIntBase2, hp, hl, if_false]
    cases unsigned l <;> rfl

/-! ## Characters and elements -/

theorem chrs_injective {l m : List Logic} (h : chrs l = chrs m) : l = m := by
  induction l generalizing m with
  | nil => cases m <;> simp [chrs] at h ⊢
  | cons x xs ih =>
    cases m with
    | nil => simp [chrs] at h
    | cons y ys =>
      simp only [chrs, List.map_cons, List.cons.injEq] at h
      have : x = y := by
        have := h.1
        cases x <;> cases y <;> first | rfl | (exact absurd this (by decide))
      rw [this, ih h.2]

theorem logics_chrs (l : List Logic) : LA.logics ((chrs l).map fun c => .str [c]) = .ok l := by
  induction l with
  | nil => rfl
  | cons x xs ih =>
    simp only [chrs, List.map_cons, LA.logics] at ih ⊢
    have : new .logic (.str [x.chr]) = .ok ⟨.logic, x⟩ := by cases x <;> rfl
    rw [this, ih]

theorem logics_obj (l : List Logic) : LA.logics (l.map fun v => .obj ⟨.logic, v⟩) = .ok l := by
  induction l with
  | nil => rfl
  | cons x xs ih =>
    simp only [List.map_cons, LA.logics, ih]
    rfl

/-- A string over the literals is the printout of exactly one element list. -/
theorem exists_chrs (s : PyStr) (h : s.all (fun c => decide (c ∈ LA.strLiterals)) = true) :
    ∃ l, s = chrs l := by
  induction s with
  | nil => exact ⟨[], rfl⟩
  | cons c cs ih =>
    simp only [List.all_cons, Bool.and_eq_true, decide_eq_true_eq] at h
    obtain ⟨l, hl⟩ := ih h.2
    have : ∃ x : Logic, x.chr = c := by
      have := h.1
      simp only [LA.strLiterals, List.mem_cons, List.not_mem_nil, or_false] at this
      rcases this with rfl | rfl | rfl | rfl | rfl | rfl | rfl | rfl | rfl
      · exact ⟨U, rfl⟩
      · exact ⟨X, rfl⟩
      · exact ⟨F0, rfl⟩
      · exact ⟨F1, rfl⟩
      · exact ⟨Z, rfl⟩
      · exact ⟨W, rfl⟩
      · exact ⟨L, rfl⟩
      · exact ⟨H, rfl⟩
      · exact ⟨D, rfl⟩
    obtain ⟨x, rfl⟩ := this
    exact ⟨x :: l, by rw [hl]; rfl⟩

theorem chrs_literals (l : List Logic) :
    (chrs l).all (fun c => decide (c ∈ LA.strLiterals)) = true := by
  induction l with
  | nil => rfl
  | cons x xs ih =>
    simp only [chrs, List.map_cons, List.all_cons, Bool.and_eq_true] at ih ⊢
    exact ⟨by cases x <;> decide, ih⟩

theorem normStr_chrs (l : List Logic) : LA.normStr (chrs l) = chrs l := by
  induction l with
  | nil => rfl
  | cons x xs ih =>
    have hx : x.chr ≠ '_' ∧ x.chr.toUpper = x.chr := by cases x <;> decide
    simp only [LA.normStr, chrs, List.map_cons] at ih ⊢
    rw [List.filter_cons_of_pos (by simpa using hx.1), List.map_cons, hx.2, ih]

@[simp] theorem chrs_length (l : List Logic) : (chrs l).length = l.length := by simp [chrs]

/-! ## Conversions of an object that holds `l` -/

/-- `_get_str`. -/
theorem getStr_rep {a : LA} {l : List Logic} (h : Rep a l) :
    a.getStr.1 = .ok (chrs l) ∧ Rep a.getStr.2 l ∧ a.getStr.2.range = a.range ∧
      a.getStr.2.warn = a.warn ∧ a.getStr.2.arr = a.arr ∧ a.getStr.2.int = a.int ∧
      a.getStr.2.str = some (chrs l) := by
  unfold LA.getStr
  cases hs : a.str with
  | some s => exact ⟨by rw [h.str s hs], h, rfl, rfl, rfl, rfl, by rw [← h.str s hs]; exact hs⟩
  | none =>
    rcases h.some hs with ⟨n, hn, he⟩ | ⟨hn, ha⟩
    · have e : pyFormatBin a.len n = chrs l := by
        rw [he, h.len]; rfl
      simp only [hn, e]
      refine ⟨trivial, ?_, trivial, trivial, trivial, trivial, trivial⟩
      exact ⟨h.len, h.valid, h.arr, fun s hs => by simpa using hs.symm, fun m hm => h.int m (by
        rw [hn]; exact hm), fun hc => by simp at hc⟩
    · cases har : a.arr with
      | none => exact absurd har ha
      | some m =>
        have := h.arr m har
        subst this
        simp only [hn]
        refine ⟨rfl, ?_, trivial, trivial, trivial, trivial, rfl⟩
        exact ⟨h.len, h.valid, fun m' hm => h.arr m' (by rw [har]; exact hm),
          fun s hs => (by simpa using hs.symm : s = m.map Logic.chr), fun n hn => by simp at hn, fun hc => by simp at hc⟩

/-- `_get_array`. -/
theorem getArray_rep {a : LA} {l : List Logic} (h : Rep a l) :
    a.getArray.1 = .ok l ∧ Rep a.getArray.2 l ∧ a.getArray.2.range = a.range ∧
      a.getArray.2.warn = a.warn ∧ a.getArray.2.arr = some l := by
  unfold LA.getArray
  cases har : a.arr with
  | some m =>
    have := h.arr m har
    subst this
    exact ⟨rfl, h, rfl, rfl, har⟩
  | none =>
    obtain ⟨h1, h2, h3, h4, h5, h6, h7⟩ := getStr_rep h
    generalize hg : a.getStr = p at *
    obtain ⟨r, a'⟩ := p
    simp only at h1 h2 h3 h4 h5 h6 h7
    subst h1
    simp only [logics_chrs]
    refine ⟨trivial, ?_, h3, h4, trivial⟩
    exact ⟨h2.len, h2.valid, fun m hm => by simpa using hm.symm, h2.str, h2.int, fun hs => by
      rcases h2.some hs with hh | hh
      · exact Or.inl hh
      · exact Or.inr ⟨hh.1, by simp⟩⟩

theorem Spec.Rep.range_len {a : LA} {l : List Logic} (h : Rep a l) : a.len = l.length := h.len.symm

/-- Value computed by `_get_int` from the elements alone. -/
def listInt (rx : Option Resolver) (rng : LA.Rng) (l : List Logic) : PyM Int × LA.Rng :=
  match pyIntBase2 ((chrs l).map LA.lhTable) with
  | .ok n => (.ok n, rng)
  | .error _ => match rx with
    | none => (.error .valueError, rng)
    | some r => (pyIntBase2 (r.apply ((chrs l).map LA.lhTable) rng).1,
        (r.apply ((chrs l).map LA.lhTable) rng).2)

/-- `_get_int`. -/
theorem getInt_rep {a : LA} {l : List Logic} (rx : Option Resolver) (rng : LA.Rng) (h : Rep a l) :
    (a.getInt rx rng).1 = (listInt rx rng l).1 ∧ (a.getInt rx rng).2.2 = (listInt rx rng l).2 ∧
      Rep (a.getInt rx rng).2.1 l ∧ (a.getInt rx rng).2.1.range = a.range ∧
      (a.getInt rx rng).2.1.warn = a.warn := by
  unfold LA.getInt listInt
  cases hi : a.int with
  | some n => simp only [h.int n hi]; exact ⟨trivial, trivial, h, trivial, trivial⟩
  | none =>
    obtain ⟨h1, h2, h3, h4, h5, h6, h7⟩ := getStr_rep h
    generalize hg : a.getStr = p at *
    obtain ⟨r, a'⟩ := p
    simp only at h1 h2 h3 h4 h5 h6 h7
    subst h1
    simp only
    cases hp : pyIntBase2 ((chrs l).map LA.lhTable) with
    | ok n =>
      simp only
      refine ⟨trivial, trivial, ?_, h3, h4⟩
      exact ⟨h2.len, h2.valid, h2.arr, h2.str, fun m hm => by
        simp at hm; subst hm; exact hp, fun hc => by simp [h7] at hc⟩
    | error e =>
      simp only
      cases rx with
      | none => exact ⟨rfl, rfl, h2, h3, h4⟩
      | some r => exact ⟨rfl, rfl, h2, h3, h4⟩

/-! ## Numeric conversions -/

theorem bit_le {x : Logic} {b : Nat} (h : bit x = some b) : b ≤ 1 := by
  cases x <;> simp [bit, boolVal] at h <;> omega

theorem head_ne_dash {l : List Logic} {n : Nat} (h : unsigned l = some n) : l.head? ≠ some D := by
  cases l with
  | nil => simp
  | cons x xs =>
    intro hd
    simp at hd
    subst hd
    simp [unsigned, bit, boolVal] at h

theorem listInt_some {l : List Logic} {n : Nat} (rx : Option Resolver) (rng : LA.Rng) (hl : l ≠ [])
    (h : unsigned l = some n) : listInt rx rng l = (.ok (n : Int), rng) := by
  unfold listInt
  rw [pyInt_chrs l hl (head_ne_dash h), h]

theorem toUnsigned_some {a : LA} {l : List Logic} {n : Nat} (rx : Option Resolver) (rng : LA.Rng)
    (hr : Rep a l) (hl : l ≠ []) (h : unsigned l = some n) :
    (a.toUnsigned rx rng).1 = .ok (n : Int) := by
  unfold LA.toUnsigned
  have : a.len ≠ 0 := by
    rw [hr.range_len]; cases l <;> simp at hl ⊢
  rw [if_neg this, (getInt_rep rx rng hr).1, listInt_some rx rng hl h]

/-- Relation between the two readings. -/
theorem signed_of_unsigned {l : List Logic} {n : Nat} (hl : l ≠ []) (h : unsigned l = some n) :
    signed l = some (if (n : Int) ≥ 2 ^ (l.length - 1) then (n : Int) - 2 * 2 ^ (l.length - 1) else n) := by
  cases l with
  | nil => exact absurd rfl hl
  | cons x xs =>
    simp only [unsigned] at h
    cases hb : bit x with
    | none => simp [hb] at h
    | some b =>
      cases hu : unsigned xs with
      | none => simp [hb, hu] at h
      | some v =>
        simp [hb, hu] at h
        have hv := unsigned_lt hu
        have hb1 := bit_le hb
        simp only [signed, hb, hu, List.length_cons, Nat.add_sub_cancel]
        have e : ((2 ^ xs.length : Nat) : Int) = (2 : Int) ^ xs.length := by simp
        generalize (2 : Int) ^ xs.length = P at *
        generalize 2 ^ xs.length = p at *
        have : b = 0 ∨ b = 1 := by omega
        rcases this with rfl | rfl
        · have : ¬ ((n : Int) ≥ P) := by omega
          simp [this]; omega
        · have : (n : Int) ≥ P := by omega
          simp [this]; omega

theorem toSigned_some {a : LA} {l : List Logic} {n : Nat} (rx : Option Resolver) (rng : LA.Rng)
    (hr : Rep a l) (hl : l ≠ []) (h : unsigned l = some n) :
    ∃ v, signed l = some v ∧ (a.toSigned rx rng).1 = .ok v := by
  refine ⟨_, signed_of_unsigned hl h, ?_⟩
  unfold LA.toSigned
  have hne : a.len ≠ 0 := by
    rw [hr.range_len]; cases l <;> simp at hl ⊢
  rw [if_neg hne]
  have hg := (getInt_rep rx rng hr).1
  rw [listInt_some rx rng hl h] at hg
  generalize a.getInt rx rng = p at hg
  obtain ⟨r, a', rng'⟩ := p
  simp only at hg
  subst hg
  simp only [hr.range_len]

/-- An object built from an integer. -/
theorem rep_ofNat (r : Range) (hv : r.Valid) (hlen : 0 < r.len) (n : Nat) (hn : n < 2 ^ r.len) (w : Bool) :
    Rep ⟨none, some (n : Int), none, r, w⟩ (bitsBE r.len n) := by
  have hne : bitsBE r.len n ≠ [] := by
    intro h; have := congrArg List.length h; simp at this; omega
  refine ⟨by simp, hv, by simp, by simp, ?_, ?_⟩
  · intro m hm
    simp at hm; subst hm
    rw [pyInt_chrs _ hne (head_ne_dash (unsigned_bitsBE _ _ hn)), unsigned_bitsBE _ _ hn]
  · intro _
    left
    exact ⟨n, rfl, by rw [bitsBE_length, pyFormatBin_nat _ _ hlen hn]⟩

/-- An object built from a string or from elements. -/
theorem rep_ofStr (l : List Logic) (r : Range) (hv : r.Valid) (hlen : l.length = r.len) (w : Bool) :
    Rep ⟨none, none, some (chrs l), r, w⟩ l :=
  ⟨hlen, hv, by simp, by simp, by simp, by simp⟩

theorem rep_ofArr (l : List Logic) (r : Range) (hv : r.Valid) (hlen : l.length = r.len) (w : Bool) :
    Rep ⟨some l, none, none, r, w⟩ l :=
  ⟨hlen, hv, by simp, by simp, by simp, by simp⟩

/-- An object holds at most one list of elements. -/
theorem Spec.Rep.unique {a : LA} {l m : List Logic} (h : Rep a l) (h' : Rep a m) : l = m := by
  have h1 := (getArray_rep h).1
  rw [(getArray_rep h').1] at h1
  simpa using h1.symm

end Verif
