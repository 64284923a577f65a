import Verif.Spec.Format
/-!
# Lemmas on numeral formatting
-/
namespace Verif
open Spec

/-- Separators inserted at positive multiples of `k`, starting at position `i`. -/
def sepFrom (k : Nat) (sep : Char) : Nat → PyStr → PyStr
  | _, [] => []
  | i, c :: cs => (if 0 < i ∧ i % k = 0 then [sep, c] else [c]) ++ sepFrom k sep (i + 1) cs

theorem sepFrom_append (k : Nat) (sep : Char) (i : Nat) (xs ys : PyStr) :
    sepFrom k sep i (xs ++ ys) = sepFrom k sep i xs ++ sepFrom k sep (i + xs.length) ys := by
  induction xs generalizing i with
  | nil => simp [sepFrom]
  | cons x xs ih =>
    simp only [List.cons_append, sepFrom, ih, List.append_assoc, List.length_cons]
    congr 3; omega

theorem sepFrom_short (k : Nat) (sep : Char) (i : Nat) (xs : PyStr) (h : i + xs.length ≤ k) :
    sepFrom k sep i xs = xs := by
  induction xs generalizing i with
  | nil => rfl
  | cons x xs ih =>
    simp only [List.length_cons] at h
    have : ¬ (0 < i ∧ i % k = 0) := by
      rintro ⟨h1, h2⟩
      rw [Nat.mod_eq_of_lt (by omega)] at h2
      omega
    simp only [sepFrom, this, if_false, List.singleton_append, ih (i + 1) (by omega)]

theorem sepFrom_shift (k : Nat) (sep : Char) (i : Nat) (xs : PyStr) (h : 0 < i) :
    sepFrom k sep (i + k) xs = sepFrom k sep i xs := by
  induction xs generalizing i with
  | nil => rfl
  | cons x xs ih =>
    have : (0 < i + k ∧ (i + k) % k = 0) ↔ (0 < i ∧ i % k = 0) := by
      rw [Nat.add_mod_right]; constructor <;> rintro ⟨_, h2⟩ <;> exact ⟨by omega, h2⟩
    simp only [sepFrom, this]
    rw [show i + k + 1 = (i + 1) + k by omega, ih (i + 1) (by omega)]

theorem sepFrom_next (k : Nat) (sep : Char) (ys : PyStr) (hk : 0 < k) (hy : ys ≠ []) :
    sepFrom k sep k ys = sep :: sepFrom k sep 0 ys := by
  cases ys with
  | nil => exact absurd rfl hy
  | cons y ys =>
    simp only [sepFrom, Nat.mod_self, hk, and_self, if_true, Nat.lt_irrefl, false_and, if_false]
    rw [show k + 1 = 1 + k by omega, sepFrom_shift k sep 1 ys (by omega)]
    simp

/-- What `groupLE` computes: some number of digits `N`, grouped. -/
theorem groupLE_spec (g : Nat) (sep : Char) : ∀ (m : Nat) (rd : PyStr) (minw : Nat),
    rd.length + minw ≤ m → rd ≠ [] ∨ 0 < minw →
    (∃ N, rd.length ≤ N ∧ 1 ≤ N ∧
      groupLE g sep rd minw = sepFrom (g + 1) sep 0 (rd ++ List.replicate (N - rd.length) '0')) ∧
    (∀ N, 1 ≤ N → rd.length ≤ N → minw = N + (N - 1) / (g + 1) →
      groupLE g sep rd minw = sepFrom (g + 1) sep 0 (rd ++ List.replicate (N - rd.length) '0')) := by
  intro m
  induction m with
  | zero =>
    intro rd minw hm hp
    exfalso
    rcases hp with hp | hp
    · cases rd
      · exact hp rfl
      · simp at hm
    · omega
  | succ m ih =>
    intro rd minw hm hp
    have hpos : 1 ≤ max rd.length minw := by
      rcases hp with hp | hp
      · cases rd
        · exact absurd rfl hp
        · simp; omega
      · omega
    have hmax : max (max rd.length minw) 1 = max rd.length minw := by omega
    rw [groupLE]
    simp only [hmax]
    by_cases hs : max rd.length minw ≤ g + 1
    · -- one group
      have hlen : min (g + 1) (max rd.length minw) = max rd.length minw := by omega
      have h1 : rd.drop (max rd.length minw) = [] := List.drop_eq_nil_of_le (by omega)
      have h2 : minw - max rd.length minw = 0 := by omega
      have h3 : rd.take (max rd.length minw) = rd := List.take_of_length_le (by omega)
      simp only [hlen, h1, h2, h3, and_self, dite_true]
      refine ⟨⟨max rd.length minw, by omega, hpos, ?_⟩, ?_⟩
      · rw [sepFrom_short]
        simp; omega
      · intro N h1N hN hw
        have hle : N ≤ minw := hw ▸ Nat.le_add_right _ _
        have : (N - 1) / (g + 1) = 0 := Nat.div_eq_of_lt (by omega)
        have hNm : max rd.length minw = N := by omega
        rw [hNm, sepFrom_short]
        simp; omega
    · have hlen : min (g + 1) (max rd.length minw) = g + 1 := by omega
      simp only [hlen]
      have hcond : ¬ (rd.drop (g + 1) = [] ∧ minw - (g + 1) = 0) := by
        rintro ⟨h1, h2⟩
        have := congrArg List.length h1
        simp at this
        omega
      rw [dif_neg hcond]
      have key : ∀ N, rd.length ≤ N → g + 1 < N →
          rd ++ List.replicate (N - rd.length) '0' =
            (rd.take (g + 1) ++ List.replicate (g + 1 - rd.length) '0') ++
              (rd.drop (g + 1) ++ List.replicate (N - (g + 1) - (rd.drop (g + 1)).length) '0') := by
        intro N h1 h2
        by_cases hr : rd.length ≤ g + 1
        · have e1 : rd.take (g + 1) = rd := List.take_of_length_le hr
          have e2 : rd.drop (g + 1) = [] := List.drop_eq_nil_of_le hr
          simp only [e1, e2, List.length_nil, List.nil_append, List.append_assoc, Nat.sub_zero]
          rw [List.replicate_append_replicate]
          congr 2; omega
        · have e3 : g + 1 - rd.length = 0 := by omega
          simp only [e3, List.replicate_zero, List.append_nil, List.length_drop]
          rw [← List.append_assoc, List.take_append_drop]
          congr 2; omega
      have split : ∀ N, rd.length ≤ N → g + 1 < N →
          sepFrom (g + 1) sep 0 (rd ++ List.replicate (N - rd.length) '0') =
            (rd.take (g + 1) ++ List.replicate (g + 1 - rd.length) '0') ++ sep ::
              sepFrom (g + 1) sep 0
                (rd.drop (g + 1) ++ List.replicate (N - (g + 1) - (rd.drop (g + 1)).length) '0') := by
        intro N h1 h2
        have hl : (rd.take (g + 1) ++ List.replicate (g + 1 - rd.length) '0').length = g + 1 := by
          simp; omega
        rw [key N h1 h2, sepFrom_append, sepFrom_short _ _ _ _ (by omega), hl, Nat.zero_add,
          sepFrom_next _ _ _ (by omega)]
        intro hnil
        have := congrArg List.length hnil
        simp at this
        omega
      have hdec : (rd.drop (g + 1)).length + (minw - (g + 1) - 1) ≤ m := by
        rw [List.length_drop]; omega
      by_cases hp' : rd.drop (g + 1) ≠ [] ∨ 0 < minw - (g + 1) - 1
      · obtain ⟨⟨N, hN1, hN2, hN3⟩, hx⟩ := ih _ _ hdec hp'
        have hdl := List.length_drop (i := g + 1) (l := rd)
        refine ⟨⟨N + (g + 1), by omega, by omega, ?_⟩, ?_⟩
        · rw [split _ (by omega) (by omega), hN3]
          simp
        · intro N' h1 h2 h3
          by_cases hg : g + 1 < N'
          · rw [split _ h2 hg]
            have hq : (N' - 1) / (g + 1) = (N' - (g + 1) - 1) / (g + 1) + 1 := by
              rw [show N' - 1 = (N' - (g + 1) - 1) + (g + 1) by omega, Nat.add_div_right _ (by omega)]
            rw [hx (N' - (g + 1)) (by omega) (by omega) (by
              rw [hq] at h3
              generalize (N' - (g + 1) - 1) / (g + 1) = q at h3 ⊢
              omega)]
          · exfalso
            have : (N' - 1) / (g + 1) = 0 := Nat.div_eq_of_lt (by omega)
            omega
      · -- remaining width exactly one separator: a single zero follows
        have hnil : rd.drop (g + 1) = [] := by
          rcases Classical.em (rd.drop (g + 1) = []) with h | h
          · exact h
          · exact absurd (Or.inl h) hp'
        have hw0 : minw - (g + 1) - 1 = 0 := by
          have : ¬ 0 < minw - (g + 1) - 1 := fun h => hp' (Or.inr h)
          omega
        have hrl : rd.length ≤ g + 1 := by
          have := congrArg List.length hnil
          simp at this; omega
        have hz : groupLE g sep [] 0 = ['0'] := by
          rw [groupLE]
          have hone : min (g + 1) 1 = 1 := by omega
          simp [hone]
        rw [hnil, hw0, hz]
        have hmw : minw = g + 2 := by omega
        refine ⟨⟨g + 2, by omega, by omega, ?_⟩, ?_⟩
        · rw [split _ (by omega) (by omega), hnil]
          have : g + 2 - (g + 1) - ([] : PyStr).length = 1 := by simp
          rw [this]
          simp [sepFrom]
        · intro N' h1 h2 h3
          exfalso
          by_cases hg : g + 1 < N'
          · have hq : (N' - 1) / (g + 1) = (N' - (g + 1) - 1) / (g + 1) + 1 := by
              rw [show N' - 1 = (N' - (g + 1) - 1) + (g + 1) by omega, Nat.add_div_right _ (by omega)]
            rw [hq] at h3
            generalize (N' - (g + 1) - 1) / (g + 1) = q at h3
            omega
          · have : (N' - 1) / (g + 1) = 0 := Nat.div_eq_of_lt (by omega)
            omega

/-! ## Digits -/

theorem digitsLE_pad (b : Nat) (hb : 2 ≤ b) (w n : Nat) (h : n < b ^ w) :
    digitsLE b n ++ List.replicate (w - (digitsLE b n).length) 0 =
      (List.range w).map fun i => n / b ^ i % b := by
  induction w generalizing n with
  | zero =>
    simp at h; subst h
    rw [digitsLE]; simp
  | succ w ih =>
    have ih' := ih (n / b) (by
      rw [Nat.pow_succ] at h
      exact Nat.div_lt_of_lt_mul (by rw [Nat.mul_comm]; exact h))
    rw [List.range_succ_eq_map, List.map_cons, List.map_map]
    have hf : ((fun i => n / b ^ i % b) ∘ Nat.succ) = fun i => n / b / b ^ i % b := by
      funext i
      simp only [Function.comp, Nat.succ_eq_add_one, Nat.pow_succ]
      rw [Nat.mul_comm, Nat.div_div_eq_div_mul]
    rw [hf, ← ih']
    rw [digitsLE]
    by_cases hn : n = 0
    · subst hn
      have hz : digitsLE b 0 = [] := by rw [digitsLE]; simp
      simp [hz, List.replicate_succ]
    · have : ¬ (n = 0 ∨ b < 2) := by omega
      rw [dif_neg this]
      simp

theorem digitsLE_length_le (b : Nat) (hb : 2 ≤ b) (w n : Nat) (h : n < b ^ w) :
    (digitsLE b n).length ≤ w := by
  have := congrArg List.length (digitsLE_pad b hb w n h)
  simp at this; omega

theorem lt_pow_digitsLE (b : Nat) (hb : 2 ≤ b) (m n : Nat) (hm : n ≤ m) :
    n < b ^ (digitsLE b n).length := by
  induction m generalizing n with
  | zero =>
    have : n = 0 := by omega
    subst this
    exact Nat.pow_pos (by omega)
  | succ m ih =>
    rw [digitsLE]
    by_cases hn : n = 0
    · subst hn; exact Nat.pow_pos (by omega)
    · have : ¬ (n = 0 ∨ b < 2) := by omega
      rw [dif_neg this]
      have hlt : n / b < n := Nat.div_lt_self (by omega) (by omega)
      have := ih (n / b) (by omega)
      rw [List.length_cons, Nat.pow_succ]
      exact (Nat.div_lt_iff_lt_mul (by omega)).1 this

theorem base_ge (ty : FmtTy) : 2 ≤ ty.base := by cases ty <;> decide

theorem numeralLE_ne (ty : FmtTy) (n : Nat) : numeralLE ty n ≠ [] := by
  unfold numeralLE
  split
  · simp
  · rename_i h
    rw [digitsLE]
    have := base_ge ty
    have h2 : ¬ (n = 0 ∨ ty.base < 2) := by omega
    rw [dif_neg h2]
    simp

theorem numeralLE_length_le (ty : FmtTy) (w n : Nat) (hw : 1 ≤ w) (h : n < ty.base ^ w) :
    (numeralLE ty n).length ≤ w := by
  unfold numeralLE
  split
  · simpa using hw
  · simpa using digitsLE_length_le _ (base_ge ty) w n h

theorem lt_pow_numeralLE (ty : FmtTy) (n : Nat) : n < ty.base ^ (numeralLE ty n).length := by
  unfold numeralLE
  split
  · rename_i h
    subst h
    exact Nat.pow_pos (by have := base_ge ty; omega)
  · simpa using lt_pow_digitsLE _ (base_ge ty) n n (Nat.le_refl n)

theorem numeralLE_pad (ty : FmtTy) (w n : Nat) (hw : (numeralLE ty n).length ≤ w) :
    numeralLE ty n ++ List.replicate (w - (numeralLE ty n).length) '0' =
      (List.range w).map (digit ty n) := by
  have hb := base_ge ty
  have hz : digitChar (ty == .X) 0 = '0' := by simp [digitChar]
  have hlt : n < ty.base ^ w :=
    Nat.lt_of_lt_of_le (lt_pow_numeralLE ty n) (Nat.pow_le_pow_right (by omega) hw)
  have := congrArg (List.map (digitChar (ty == .X))) (digitsLE_pad ty.base hb w n hlt)
  rw [List.map_append, List.map_replicate, hz, List.map_map] at this
  unfold numeralLE at hw ⊢
  by_cases hn : n = 0
  · subst hn
    simp only [if_true, List.length_singleton] at hw ⊢
    have hz2 : digitsLE ty.base 0 = [] := by rw [digitsLE]; simp
    rw [hz2] at this
    simp only [List.map_nil, List.nil_append, List.length_nil, Nat.sub_zero] at this
    obtain ⟨w', rfl⟩ : ∃ w', w = w' + 1 := ⟨w - 1, by omega⟩
    rw [List.replicate_succ] at this
    exact this
  · simp only [hn, if_false] at hw ⊢
    simp only [List.length_map]
    exact this

theorem sepFrom_map (k : Nat) (sep : Char) (d : Nat → Char) (w i : Nat) :
    sepFrom k sep i ((List.range w).map fun j => d (i + j)) =
      (List.range w).flatMap fun j => (if 0 < i + j ∧ (i + j) % k = 0 then [sep, d (i + j)] else [d (i + j)]) := by
  induction w generalizing i with
  | zero => rfl
  | succ w ih =>
    rw [List.range_succ_eq_map, List.map_cons, List.map_map, List.flatMap_cons, List.flatMap_map]
    simp only [sepFrom, Nat.add_zero]
    congr 1
    have := ih (i + 1)
    have e : ∀ j, i + Nat.succ j = i + 1 + j := by intro j; omega
    simp only [Function.comp_def]
    have e1 : (fun j => d (i + Nat.succ j)) = fun j => d (i + 1 + j) := by funext j; rw [e]
    rw [e1, this]
    congr 1
    funext j
    rw [e j]

theorem grouped_eq (ty : FmtTy) (sep : Char) (k w n : Nat) :
    (sepFrom k sep 0 ((List.range w).map (digit ty n))).reverse = grouped ty sep k w n := by
  have := sepFrom_map k sep (digit ty n) w 0
  simp only [Nat.zero_add] at this
  have h2 : (List.range w).map (digit ty n) = (List.range w).map fun j => digit ty n j := rfl
  rw [h2, this, List.reverse_flatMap]
  unfold grouped
  congr 1
  funext i
  simp only [Function.comp]
  split <;> simp

theorem numeral_eq (ty : FmtTy) (w n : Nat) :
    ((List.range w).map (digit ty n)).reverse = numeral ty w n := by
  rw [numeral, List.map_reverse]

end Verif
