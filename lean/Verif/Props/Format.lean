import Verif.Props.LogicArray
import Verif.Lemmas.Format
/-!
# Properties of `format(LogicArray, spec)` (C20)
-/
namespace Verif
open Spec Logic

/-- The format spec string: `#` option, separator option, letter. -/
def specOf (alt : Bool) (sep : Option Char) (ty : FmtTy) : PyStr :=
  (if alt then ['#'] else []) ++ sep.toList ++ [letter ty]

/-- The prefix printed with `#`. -/
def preOf (alt : Bool) (ty : FmtTy) : PyStr :=
  if alt then ['0', letter ty] else []

theorem lt_base_pow (ty : FmtTy) (n v : Nat) (hty : ty ≠ .d) (h : v < 2 ^ n) :
    v < ty.base ^ digitsFor ty n := by
  have key : ∀ k m, n ≤ k * m → v < (2 ^ k) ^ m := by
    intro k m hk
    rw [← Nat.pow_mul]
    exact Nat.lt_of_lt_of_le h (Nat.pow_le_pow_right (by omega) hk)
  cases ty with
  | b => exact h
  | o => exact key 3 _ (by simp only [digitsFor]; omega)
  | x => exact key 4 _ (by simp only [digitsFor]; omega)
  | X => exact key 4 _ (by simp only [digitsFor]; omega)
  | d => exact absurd rfl hty

theorem digitsFor_pos (ty : FmtTy) (n : Nat) (h : 0 < n) : 0 < digitsFor ty n := by
  cases ty <;> simp only [digitsFor] <;> omega

/-- Padding without grouping. -/
theorem pyFormatInt_plain (alt : Bool) (W w : Nat) (ty : FmtTy) (v : Nat)
    (hW : W = w + (if alt then ty.pre else []).length) (hl : (numeralLE ty v).length ≤ w) :
    pyFormatInt alt W none ty (v : Int) = .ok ((if alt then ty.pre else []) ++ numeral ty w v) := by
  unfold pyFormatInt
  have hv : ¬ (v : Int) < 0 := by omega
  simp only [hv, if_false, Int.natAbs_natCast]
  simp only [reduceCtorEq, false_and, if_false, List.length_nil, List.nil_append, Nat.zero_add]
  rw [hW, Nat.add_sub_cancel, numeralLE_pad ty w v hl, numeral_eq]

/-- Padding with grouping, width computed for `w` digits. -/
theorem pyFormatInt_grouped (alt : Bool) (sep : Char) (W w : Nat) (ty : FmtTy) (v : Nat)
    (hsep : sep ≠ ',' ∨ ty = .d) (hw : 1 ≤ w)
    (hW : W = w + (w - 1) / ty.group + (if alt then ty.pre else []).length)
    (hl : (numeralLE ty v).length ≤ w) :
    pyFormatInt alt W (some sep) ty (v : Int) =
      .ok ((if alt then ty.pre else []) ++ grouped ty sep ty.group w v) := by
  unfold pyFormatInt
  have hv : ¬ (v : Int) < 0 := by omega
  have hs : ¬ (some sep = some ',' ∧ ty ≠ .d) := by
    rintro ⟨h1, h2⟩
    rcases hsep with h | h
    · exact h (by simpa using h1)
    · exact h2 h
  have hg : ty.group - 1 + 1 = ty.group := by cases ty <;> rfl
  simp only [hv, hs, if_false, Int.natAbs_natCast, List.length_nil, List.nil_append, Nat.zero_add]
  rw [hW, Nat.add_sub_cancel]
  have := (groupLE_spec (ty.group - 1) sep _ (numeralLE ty v) (w + (w - 1) / ty.group)
    (Nat.le_refl _) (Or.inl (numeralLE_ne ty v))).2 w hw hl (by rw [hg])
  rw [this, numeralLE_pad ty w v hl, hg, grouped_eq]

/-- Grouping with any width: some number of digits. -/
theorem pyFormatInt_grouped_ex (sep : Char) (W : Nat) (v : Nat) :
    ∃ w, v < 10 ^ w ∧ pyFormatInt false W (some sep) .d (v : Int) = .ok (grouped .d sep 3 w v) := by
  have hv : ¬ (v : Int) < 0 := by omega
  obtain ⟨N, h1, _, h3⟩ := (groupLE_spec 2 sep _ (numeralLE .d v) W
    (Nat.le_refl _) (Or.inl (numeralLE_ne .d v))).1
  refine ⟨N, ?_, ?_⟩
  · exact Nat.lt_of_lt_of_le (lt_pow_numeralLE .d v) (Nat.pow_le_pow_right (by decide) h1)
  · unfold pyFormatInt
    simp only [hv, if_false, Int.natAbs_natCast, ne_eq, not_true, and_false, List.length_nil,
      List.nil_append, Nat.zero_add, Nat.sub_zero, Bool.false_eq_true]
    show (.ok (groupLE 2 sep (numeralLE .d v) W).reverse : PyM PyStr) = _
    rw [h3, numeralLE_pad .d N v h1, grouped_eq]

theorem format_num (rx : Option Resolver) (rng : LA.Rng) (a : LA) (l : List Logic) (v : Nat)
    (h : Rep a l) (hne : l ≠ []) (hv : unsigned l = some v) (alt : Bool) (sep : Option Char) (ty : FmtTy)
    (hsep : sep = none ∨ sep = some '_' ∨ sep = some ',') :
    (a.format rx rng (specOf alt sep ty)).1 =
      (match ty with
        | .d => (pyFormatInt false ((l.length + 9) / 10 +
            (if sep.isSome then ((l.length + 9) / 10 - 1) / 3 else 0) + (if alt then 2 else 0)) sep .d v).map
              fun s => (if alt then "0d".toList else []) ++ s
        | .o => pyFormatInt alt ((l.length + 2) / 3 + (if alt then 2 else 0) +
            (if sep.isSome then ((l.length + 2) / 3 + (if alt then 2 else 0) - 1) / 4 else 0)) sep .o v
        | ty => pyFormatInt alt (digitsFor ty l.length +
            (if sep.isSome then (digitsFor ty l.length - 1) / 4 else 0) + (if alt then 2 else 0)) sep ty v) := by
  have hu := toUnsigned_some rx rng h hne hv
  have hlen := h.range_len
  rw [← hlen]
  unfold LA.format
  generalize a.toUnsigned rx rng = p at *
  obtain ⟨q, a', rng'⟩ := p
  simp only at hu
  subst hu
  rcases hsep with rfl | rfl | rfl <;> cases alt <;> cases ty <;>
    simp [specOf, letter, digitsFor, Except.map, LA.fmtAlt, LA.fmtSep] <;> split <;> simp_all

/-- C20: binary, octal and hexadecimal formatting without grouping: prefix plus the numeral with
exactly the digits needed for `len(a)`. -/
theorem C20_fixed_width (rx : Option Resolver) (rng : LA.Rng) (a : LA) (l : List Logic) (v : Nat)
    (h : Rep a l) (hne : l ≠ []) (hv : unsigned l = some v) (alt : Bool) (ty : FmtTy) (hty : ty ≠ .d) :
    (a.format rx rng (specOf alt none ty)).1 =
      .ok (preOf alt ty ++ numeral ty (digitsFor ty l.length) v) := by
  have hpos : 0 < l.length := by cases l <;> simp at hne ⊢
  have hlt := unsigned_lt hv
  have hb := numeralLE_length_le ty (digitsFor ty l.length) v (digitsFor_pos ty _ hpos)
    (lt_base_pow ty _ v hty hlt)
  rw [format_num rx rng a l v h hne hv alt none ty (Or.inl rfl)]
  have e : preOf alt ty = if alt then ty.pre else [] := by
    cases alt <;> cases ty <;> first | rfl | exact absurd rfl hty
  rw [e]
  cases ty with
  | d => exact absurd rfl hty
  | o => exact pyFormatInt_plain alt _ _ .o v (by cases alt <;> rfl) hb
  | b => exact pyFormatInt_plain alt _ _ .b v (by cases alt <;> rfl) hb
  | x => exact pyFormatInt_plain alt _ _ .x v (by cases alt <;> rfl) hb
  | X => exact pyFormatInt_plain alt _ _ .X v (by cases alt <;> rfl) hb

/-- C20, full claim for grouping: prefix plus the numeral with exactly the digits needed, in groups
of four. -/
def C20_grouping_full : Prop :=
  ∀ (rx : Option Resolver) (rng : LA.Rng) (a : LA) (l : List Logic) (v : Nat) (alt : Bool) (ty : FmtTy),
    Rep a l → l ≠ [] → unsigned l = some v → ty ≠ .d →
    (a.format rx rng (specOf alt (some '_') ty)).1 =
      .ok (preOf alt ty ++ grouped ty '_' 4 (digitsFor ty l.length) v)

/-- C20: false of the code for `#_o`, where the separators are counted after adding the prefix
length: nine bits need three octal digits but four are printed. -/
theorem C20_grouping_counterexample : ¬ C20_grouping_full := by
  intro h
  have := h none (fun _ => false) ⟨none, some 7, none, .mk3 8 .downto 0, false⟩ (bitsBE 9 7) 7 true .o
    (rep_ofNat _ (Range.valid_mk3 _ _ _) (by decide) 7 (by decide) false) (by decide) (by decide) (by decide)
  revert this
  decide +kernel

/-- C20 with `_`: all cases except `#_o`. -/
theorem C20_grouping_partial (rx : Option Resolver) (rng : LA.Rng) (a : LA) (l : List Logic) (v : Nat)
    (h : Rep a l) (hne : l ≠ []) (hv : unsigned l = some v) (alt : Bool) (ty : FmtTy) (hty : ty ≠ .d)
    (hx : ¬ (alt = true ∧ ty = .o)) :
    (a.format rx rng (specOf alt (some '_') ty)).1 =
      .ok (preOf alt ty ++ grouped ty '_' 4 (digitsFor ty l.length) v) := by
  have hpos : 0 < l.length := by cases l <;> simp at hne ⊢
  have hlt := unsigned_lt hv
  have hd := digitsFor_pos ty _ hpos
  have hb := numeralLE_length_le ty (digitsFor ty l.length) v hd (lt_base_pow ty _ v hty hlt)
  rw [format_num rx rng a l v h hne hv alt (some '_') ty (Or.inr (Or.inl rfl))]
  have e : preOf alt ty = if alt then ty.pre else [] := by
    cases alt <;> cases ty <;> first | rfl | exact absurd rfl hty
  rw [e]
  cases ty with
  | d => exact absurd rfl hty
  | o =>
    cases alt with
    | true => exact absurd ⟨rfl, rfl⟩ hx
    | false => exact pyFormatInt_grouped false '_' _ _ .o v (Or.inl (by decide)) hd rfl hb
  | b => exact pyFormatInt_grouped alt '_' _ _ .b v (Or.inl (by decide)) hd (by cases alt <;> rfl) hb
  | x => exact pyFormatInt_grouped alt '_' _ _ .x v (Or.inl (by decide)) hd (by cases alt <;> rfl) hb
  | X => exact pyFormatInt_grouped alt '_' _ _ .X v (Or.inl (by decide)) hd (by cases alt <;> rfl) hb

/-- C20: `d` prints a decimal numeral denoting exactly `to_unsigned()` (possibly with leading zeros,
hence "some width `w` with `v < 10^w`"), with `0d` in front for `#` and groups of three for `_`/`,`. -/
theorem C20_decimal (rx : Option Resolver) (rng : LA.Rng) (a : LA) (l : List Logic) (v : Nat)
    (h : Rep a l) (hne : l ≠ []) (hv : unsigned l = some v) (alt : Bool) :
    (∃ w, v < 10 ^ w ∧ (a.format rx rng (specOf alt none .d)).1 = .ok (preOf alt .d ++ numeral .d w v)) ∧
    (∀ sep, sep = '_' ∨ sep = ',' → ∃ w, v < 10 ^ w ∧
      (a.format rx rng (specOf alt (some sep) .d)).1 = .ok (preOf alt .d ++ grouped .d sep 3 w v)) := by
  have e : (if alt then "0d".toList else []) = preOf alt .d := by cases alt <;> rfl
  constructor
  · rw [format_num rx rng a l v h hne hv alt none .d (Or.inl rfl)]
    simp only [e, Option.isSome_none, Bool.false_eq_true, if_false, Nat.add_zero]
    generalize hW : (l.length + 9) / 10 + (if alt = true then 2 else 0) = W
    refine ⟨max W (numeralLE .d v).length, ?_, ?_⟩
    · exact Nat.lt_of_lt_of_le (lt_pow_numeralLE .d v) (Nat.pow_le_pow_right (by decide) (by omega))
    · have : pyFormatInt false W none .d (v : Int) = .ok (numeral .d (max W (numeralLE .d v).length) v) := by
        have hv : ¬ (v : Int) < 0 := by omega
        unfold pyFormatInt
        simp only [hv, if_false, Int.natAbs_natCast, reduceCtorEq, false_and, List.length_nil,
          List.nil_append, Nat.zero_add, Nat.sub_zero, Bool.false_eq_true]
        rw [← numeral_eq, ← numeralLE_pad .d _ v (by omega)]
        rw [show max W (numeralLE .d v).length - (numeralLE .d v).length = W - (numeralLE .d v).length by omega]
      rw [this]; rfl
  · intro sep hs
    have hs' : (some sep) = none ∨ some sep = some '_' ∨ some sep = some ',' := by
      rcases hs with rfl | rfl <;> simp
    rw [format_num rx rng a l v h hne hv alt (some sep) .d hs']
    simp only [e]
    obtain ⟨w, w1, w2⟩ := pyFormatInt_grouped_ex sep ((l.length + 9) / 10 +
      (if (some sep).isSome = true then ((l.length + 9) / 10 - 1) / 3 else 0) + (if alt = true then 2 else 0)) v
    refine ⟨w, w1, ?_⟩
    rw [w2]; rfl

/-- A numeral denotes one number: equal numerals of the same width mean equal values below
`base^width`. So formatting is faithful. -/
theorem C20_faithful (ty : FmtTy) (w v v' : Nat) (h : v < ty.base ^ w) (h' : v' < ty.base ^ w)
    (heq : numeral ty w v = numeral ty w v') : v = v' := by
  have hinj : ∀ b : Bool, ∀ i < 16, ∀ j < 16, digitChar b i = digitChar b j → i = j := by decide
  have hb : ty.base ≤ 16 := by cases ty <;> decide
  have hb2 := base_ge ty
  have key : ∀ i < w, v / ty.base ^ i % ty.base = v' / ty.base ^ i % ty.base := by
    intro i hi
    unfold numeral at heq
    rw [List.map_reverse, List.map_reverse, List.reverse_inj] at heq
    have := List.map_inj_left.1 heq i (List.mem_range.2 hi)
    exact hinj _ _ (Nat.lt_of_lt_of_le (Nat.mod_lt _ (by omega)) hb) _
      (Nat.lt_of_lt_of_le (Nat.mod_lt _ (by omega)) hb) this
  clear heq
  induction w generalizing v v' with
  | zero => simp at h h'; omega
  | succ w ih =>
    have h0 := key 0 (by omega)
    simp only [Nat.pow_zero, Nat.div_one] at h0
    have hd : v / ty.base = v' / ty.base := by
      apply ih
      · rw [Nat.pow_succ] at h; exact Nat.div_lt_of_lt_mul (by rw [Nat.mul_comm]; exact h)
      · rw [Nat.pow_succ] at h'; exact Nat.div_lt_of_lt_mul (by rw [Nat.mul_comm]; exact h')
      · intro i hi
        have := key (i + 1) (by omega)
        rwa [Nat.pow_succ, Nat.mul_comm, ← Nat.div_div_eq_div_mul, ← Nat.div_div_eq_div_mul] at this
    rw [← Nat.div_add_mod v ty.base, ← Nat.div_add_mod v' ty.base, hd, h0]

/-- C20: any other spec raises `ValueError`; the empty spec is `str(a)`; `,` is rejected for the
power-of-two bases. -/
theorem C20_errors (rx : Option Resolver) (rng : LA.Rng) (a : LA) (l : List Logic) (h : Rep a l) :
    (a.format rx rng []).1 = .ok (chrs l) ∧
    (∀ s, (∀ alt sep ty, (sep = none ∨ sep = some '_' ∨ sep = some ',') → s ≠ specOf alt sep ty) → s ≠ [] →
      (a.format rx rng s).1 = .error .valueError) ∧
    (∀ v, l ≠ [] → unsigned l = some v → ∀ alt ty, ty ≠ .d →
      (a.format rx rng (specOf alt (some ',') ty)).1 = .error .valueError) := by
  refine ⟨?_, ?_, ?_⟩
  · have := (getStr_rep h).1
    unfold LA.format
    simp only [if_true]
    generalize a.getStr = p at *
    exact this
  · intro s hs hne
    unfold LA.format
    rw [if_neg hne]
    have main : ∀ (alt : Bool) (t : PyStr), s = (if alt then ['#'] else []) ++ t →
        (∀ (sep : Option Char) (u : PyStr), (sep = none ∨ sep = some '_' ∨ sep = some ',') →
          t = sep.toList ++ u → u ≠ ['b'] ∧ u ≠ ['x'] ∧ u ≠ ['X'] ∧ u ≠ ['d'] ∧ u ≠ ['o']) := by
      intro alt t ht sep u hsep hu
      refine ⟨?_, ?_, ?_, ?_, ?_⟩ <;> intro huu
      · exact hs alt sep .b hsep (by rw [ht, hu, huu]; simp [specOf, letter])
      · exact hs alt sep .x hsep (by rw [ht, hu, huu]; simp [specOf, letter])
      · exact hs alt sep .X hsep (by rw [ht, hu, huu]; simp [specOf, letter])
      · exact hs alt sep .d hsep (by rw [ht, hu, huu]; simp [specOf, letter])
      · exact hs alt sep .o hsep (by rw [ht, hu, huu]; simp [specOf, letter])
    generalize hq : LA.fmtAlt s = q
    obtain ⟨alt, t⟩ := q
    have ht : s = (if alt then ['#'] else []) ++ t := by
      unfold LA.fmtAlt at hq
      split at hq <;> · simp at hq; obtain ⟨rfl, rfl⟩ := hq; simp
    simp only [LA.fmtSep]
    split
    · obtain ⟨m1, m2, m3, m4, m5⟩ := main alt _ ht (some '_') _ (by simp) rfl
      simp only [m1, m2, m3, m4, m5, if_false]
    · obtain ⟨m1, m2, m3, m4, m5⟩ := main alt _ ht (some ',') _ (by simp) rfl
      simp only [m1, m2, m3, m4, m5, if_false]
    · obtain ⟨m1, m2, m3, m4, m5⟩ := main alt _ ht none _ (by simp) rfl
      simp only [m1, m2, m3, m4, m5, if_false]
  · intro v hne hv alt ty hty
    rw [format_num rx rng a l v h hne hv alt (some ',') ty (by simp)]
    cases ty <;> first | exact absurd rfl hty | simp [pyFormatInt]

example : (LA.format none (fun _ => false) ⟨none, some 0xbeef, none, .mk3 19 .downto 0, false⟩ "#_x".toList).1 =
    .ok "0x0_beef".toList := by decide +kernel

end Verif
