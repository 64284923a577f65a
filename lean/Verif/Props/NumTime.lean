import Verif.Lemmas.NumTime
/-!
# Times as Python numbers: C138 (times given) and C139 (times returned)
-/
namespace Verif
open Spec SimTime NumTime

/-! ### C138: times given by the user -/

/-- A `Fraction` is never rounded: the result is that of exact arithmetic, for every unit and mode. -/
theorem C138_fraction (prec : Int) (x : ℚ) (u mode : String) :
    getSimStepsN prec (.frac x) u mode = getSimSteps prec x u mode := by
  by_cases hu : u = "step"
  · subst hu; rfl
  · cases he : unitExp prec u with
    | none => rw [C22_bad_unit prec x u mode he]; unfold getSimStepsN; rw [if_neg hu, logTimeScale_err prec u hu he]
    | some e => rw [getSimStepsN_eq prec _ u mode e hu he, getSimSteps_eq prec x u mode e he, ldexp_frac]

example : getSimStepsN (-12) (.frac (1 / 8)) "ns" "error" = .ok 125 := by decide +kernel

/-- An `int` is never rounded either. -/
def C138_int_full : Prop :=
  ∀ (prec : Int) (n : ℤ) (u mode : String), getSimStepsN prec (.int n) u mode = getSimSteps prec n u mode

/-- False of the code: `2^53 + 1` femtoseconds are silently taken for `2^53` of them, although the mode is `'error'`. -/
theorem C138_int_counterexample : ¬ C138_int_full := by
  intro h
  have := h (-15) (2 ^ 53 + 1) "fs" "error"
  revert this
  decide +kernel

/-- An `int` below `2^53`, or in a unit coarser than the precision, is not rounded: the result is that of exact arithmetic, for
every unit and mode. Missing: see `C138_int_counterexample`. -/
theorem C138_int_partial (prec : Int) (n : ℤ) (u mode : String)
    (h : |n| < 2 ^ 53 ∨ u = "step" ∨ ∃ e, unitExp prec u = some e ∧ prec < e) :
    getSimStepsN prec (.int n) u mode = getSimSteps prec n u mode := by
  by_cases hu : u = "step"
  · subst hu; rfl
  · cases he : unitExp prec u with
    | none => rw [C22_bad_unit prec n u mode he]; unfold getSimStepsN; rw [if_neg hu, logTimeScale_err prec u hu he]
    | some e =>
      rw [getSimStepsN_eq prec _ u mode e hu he, getSimSteps_eq prec n u mode e he]
      by_cases hpe : prec < e
      · rw [ldexp_int_pos n _ (by omega)]
      · rw [ldexp_int_neg n _ (by omega)]
        rcases h with h | h | ⟨e', he', h⟩
        · exact fl_int_scale n _ mode (by omega) h
        · exact absurd h hu
        · rw [he] at he'; injection he' with he'; omega

example : getSimStepsN (-9) (.int 1500) "ps" "round" = .ok 2 ∧ getSimStepsN (-9) (.int 1501) "ps" "floor" = .ok 1 ∧
    getSimStepsN (-9) (.int 1501) "ps" "error" = .error .valueError := by decide +kernel

/-- A `Decimal` is never rounded. -/
def C138_decimal_full : Prop :=
  ∀ (prec : Int) (x : ℚ) (d : Nat) (u mode : String), Digits 10 d x → getSimStepsN prec (.dec x) u mode = getSimSteps prec x u mode

/-- False of the code: of a `Decimal` with 31 digits the last are dropped, although the mode is `'error'`. -/
theorem C138_decimal_counterexample : ¬ C138_decimal_full := by
  intro h
  have := h (-12) (1 + 1 / 10 ^ 30) 31 "ns" "error" ⟨10 ^ 30 + 1, -30, by norm_num, by norm_num⟩
  revert this
  decide +kernel

/-- A `Decimal` of at most 28 digits is not rounded. Missing: see `C138_decimal_counterexample`. -/
theorem C138_decimal_partial (prec : Int) (x : ℚ) (u mode : String) (hx : Digits 10 28 x) :
    getSimStepsN prec (.dec x) u mode = getSimSteps prec x u mode := by
  by_cases hu : u = "step"
  · subst hu; rfl
  · cases he : unitExp prec u with
    | none => rw [C22_bad_unit prec x u mode he]; unfold getSimStepsN; rw [if_neg hu, logTimeScale_err prec u hu he]
    | some e =>
      rw [getSimStepsN_eq prec _ u mode e hu he, getSimSteps_eq prec x u mode e he, ldexp_dec, dl,
        roundDigits_exact 10 28 (by omega) (by omega) _ (digits_scale 28 x _ hx)]

example : Digits 10 28 (1001 / 1000) ∧ getSimStepsN (-12) (.dec (1001 / 1000)) "ns" "error" = .ok 1001 :=
  ⟨⟨1001, -3, by norm_num, by norm_num⟩, by decide +kernel⟩

/-- A `float` that is exactly a whole number of steps, below `2^53`, gives that number in every mode. -/
theorem C138_float_whole (prec : Int) (x : ℚ) (n : ℤ) (u mode : String) (e : Int) (hp : -15 ≤ prec ∧ prec ≤ 2)
    (he : unitExp prec u = some e) (hx : x * 10 ^ e = n * 10 ^ prec) (hn : |n| < 2 ^ 53)
    (hm : mode ∈ ["error", "floor", "ceil", "round"]) : getSimStepsN prec (.float x) u mode = .ok n := by
  have hxn : x * 10 ^ (e - prec) = n := by
    rw [zpow_sub₀ (by norm_num), ← mul_div_assoc, hx, mul_div_cancel_right₀ _ (pow10_pos prec).ne']
  by_cases hu : u = "step"
  · subst hu
    have : e = prec := by simp [unitExp] at he; omega
    subst this
    have : x = n := by simpa using hxn
    rw [this]
    exact roundSteps_int n mode hm
  · have hr := unitExp_range hu he
    rw [getSimStepsN_eq prec _ u mode e hu he, ldexp_float x _ (by omega) (by omega), hxn, fl_int n hn]
    exact roundSteps_int n mode hm

example : getSimStepsN (-12) (.float (5 / 2)) "ns" "error" = .ok 2500 := by decide +kernel

/-- Helper: what scaling the nearest `float` can be off by. -/
theorem float_off (x t : ℚ) (n : ℤ) (k : Int) (hk : -22 ≤ k ∧ k ≤ 22) (hx : NearestFloat t x) (ht : t * 10 ^ k = n)
    (hn : |n| < 2 ^ 51) : |(ldexp10N (.float x) k).val - n| < 1 / 2 := by
  rw [ldexp_float x k hk.1 hk.2]
  have hnq : |(n : ℚ)| < 2 ^ 51 := by exact_mod_cast hn
  have hp := pow10_pos k
  have h1 : |x * 10 ^ k - n| ≤ |(n : ℚ)| / 2 ^ 53 := by
    rw [← ht, ← sub_mul, abs_mul, abs_mul, abs_sub_comm]
    have := mul_le_mul_of_nonneg_right (nearest_err hx) (abs_nonneg ((10 : ℚ) ^ k))
    refine this.trans (le_of_eq ?_)
    ring
  have h2 : |x * 10 ^ k| ≤ |(n : ℚ)| + |(n : ℚ)| / 2 ^ 53 := by
    have := abs_add_le (x * 10 ^ k - n) (n : ℚ)
    rw [sub_add_cancel] at this
    linarith
  have h3 := fl_err (x * 10 ^ k)
  have hint : |(n : ℚ)| ≤ 2 ^ 51 - 1 := by
    have : |n| ≤ 2 ^ 51 - 1 := by omega
    exact_mod_cast this
  have h4 : |fl (x * 10 ^ k) - n| ≤ |x * 10 ^ k - fl (x * 10 ^ k)| + |x * 10 ^ k - n| := by
    have := abs_sub_le (fl (x * 10 ^ k)) (x * 10 ^ k) n
    rwa [abs_sub_comm (fl (x * 10 ^ k)) (x * 10 ^ k)] at this
  have h5 : |x * 10 ^ k| / 2 ^ 53 ≤ (|(n : ℚ)| + |(n : ℚ)| / 2 ^ 53) / 2 ^ 53 := div_le_div_of_nonneg_right h2 (by positivity)
  have h6 : (|(n : ℚ)| + |(n : ℚ)| / 2 ^ 53) / 2 ^ 53 + |(n : ℚ)| / 2 ^ 53 < 1 / 2 := by
    norm_num at hint ⊢
    linarith
  linarith

/-- A time that is a whole number `n` of steps (below `2^51`), written as the `float` nearest to it, gives `n` steps in mode
`'round'`; in mode `'error'` it gives `n` or raises `ValueError`, and never another number; in the modes `'floor'` and `'ceil'` it gives `n` or the number
just below or above. -/
theorem C138_float (prec : Int) (x t : ℚ) (n : ℤ) (u : String) (e : Int) (hp : -15 ≤ prec ∧ prec ≤ 2) (hu : u ≠ "step")
    (he : unitExp prec u = some e) (ht : t * 10 ^ e = n * 10 ^ prec) (hx : NearestFloat t x) (hn : |n| < 2 ^ 51) :
    getSimStepsN prec (.float x) u "round" = .ok n ∧
    (getSimStepsN prec (.float x) u "error" = .ok n ∨ getSimStepsN prec (.float x) u "error" = .error .valueError) ∧
    (getSimStepsN prec (.float x) u "floor" = .ok n ∨ getSimStepsN prec (.float x) u "floor" = .ok (n - 1)) ∧
    (getSimStepsN prec (.float x) u "ceil" = .ok n ∨ getSimStepsN prec (.float x) u "ceil" = .ok (n + 1)) := by
  have htn : t * 10 ^ (e - prec) = n := by
    rw [zpow_sub₀ (by norm_num), ← mul_div_assoc, ht, mul_div_cancel_right₀ _ (pow10_pos prec).ne']
  have hr := unitExp_range hu he
  have hoff := float_off x t n (e - prec) (by omega) hx htn hn
  simp only [getSimStepsN_eq prec _ u _ e hu he]
  generalize (ldexp10N (.float x) (e - prec)).val = y at *
  rw [abs_lt] at hoff
  simp only [roundSteps_iff, Rounds, String.reduceEq, false_and, or_false, false_or, true_and]
  push_cast
  refine ⟨⟨?_, ?_⟩, ?_, ?_, ?_⟩
  · rw [abs_le]; constructor <;> linarith
  · intro h
    have : |y - n| < 1 / 2 := by rw [abs_lt]; exact hoff
    linarith
  · by_cases hy : y = n
    · left; exact hy.symm
    · right
      unfold roundSteps
      simp only [if_true]
      rw [if_pos]
      intro hf
      have h1 : ((y.floor : ℤ) : ℚ) - n < 1 := by rw [hf]; linarith
      have h2 : -1 < ((y.floor : ℤ) : ℚ) - n := by rw [hf]; linarith
      have h3 : y.floor - n < 1 := by exact_mod_cast h1
      have h4 : -1 < y.floor - n := by exact_mod_cast h2
      have : y.floor = n := by omega
      exact hy (by rw [← hf, this])
  · rcases le_or_gt (n : ℚ) y with h | h
    · left; constructor <;> linarith
    · right; constructor <;> linarith
  · rcases le_or_gt y (n : ℚ) with h | h
    · left; constructor <;> linarith
    · right; constructor <;> linarith

/-- A time written as the `float` nearest to a whole number of steps is accepted in mode `'error'`. -/
def C138_float_full : Prop :=
  ∀ (prec : Int) (x t : ℚ) (n : ℤ) (u : String) (e : Int), -15 ≤ prec ∧ prec ≤ 2 → unitExp prec u = some e →
    t * 10 ^ e = n * 10 ^ prec → NearestFloat t x → |n| < 2 ^ 51 → getSimStepsN prec (.float x) u "error" = .ok n

/-- False of the code: with a precision of 1 ps, `1.001` ns is refused (the product is 1000.9999999999999). -/
theorem C138_float_counterexample : ¬ C138_float_full := by
  intro h
  have := h (-12) (fl (1001 / 1000)) (1001 / 1000) 1001 "ns" (-9) (by omega) (by decide +kernel) (by norm_num) (fl_nearest _)
    (by norm_num)
  revert this
  decide +kernel

/-- In a unit as fine as the precision, or finer, such a time is accepted in every mode, if it is below `2^53` units.
Missing: see `C138_float_counterexample`. -/
theorem C138_float_partial (prec : Int) (x t : ℚ) (n : ℤ) (u mode : String) (e : Int) (hp : -15 ≤ prec ∧ prec ≤ 2)
    (he : unitExp prec u = some e) (hpe : e ≤ prec) (ht : t * 10 ^ e = n * 10 ^ prec) (hx : NearestFloat t x) (ht' : |t| < 2 ^ 53)
    (hm : mode ∈ ["error", "floor", "ceil", "round"]) : getSimStepsN prec (.float x) u mode = .ok n := by
  obtain ⟨k, rfl⟩ : ∃ k : ℕ, prec = e + k := ⟨(prec - e).toNat, by omega⟩
  have htk : t = ((n * 10 ^ k : ℤ) : ℚ) := by
    apply mul_right_cancel₀ (pow10_pos e).ne'
    rw [ht, zpow_add₀ (by norm_num)]
    push_cast
    rw [zpow_natCast]; ring
  have hint : |n * 10 ^ k| < 2 ^ 53 := by rw [htk] at ht'; exact_mod_cast ht'
  have hxt : x = t := by
    have := hx.2 t (by rw [htk]; exact digits_int 2 53 _ (by exact_mod_cast hint))
    rw [sub_self, abs_zero] at this
    have := abs_nonpos_iff.1 this
    linarith
  subst hxt
  refine C138_float_whole _ x n u mode e hp he ht ?_ hm
  refine lt_of_le_of_lt ?_ hint
  rw [abs_mul, abs_of_pos (by positivity : (0 : ℤ) < 10 ^ k)]
  have : (1 : ℤ) ≤ 10 ^ k := one_le_pow₀ (by norm_num)
  nlinarith [abs_nonneg n]

example : getSimStepsN (-12) (.float (fl (1 / 10))) "ns" "error" = .ok 100 ∧
    getSimStepsN (-12) (.float (fl (1001 / 1000))) "ns" "round" = .ok 1001 ∧
    getSimStepsN (-12) (.float (fl (1001 / 1000))) "ns" "floor" = .ok 1000 ∧
    getSimStepsN (-9) (.float 3000) "ps" "error" = .ok 3 := by decide +kernel

/-- A `Timer` of any number type waits at least one step, and refuses what is not positive. -/
theorem C138_timer (prec : Int) (t : Num) (u mode : String) :
    (t.val ≤ 0 → timerStepsN prec t u mode = .error .valueError) ∧
    (∀ n, timerStepsN prec t u mode = .ok n → 0 < n ∧
      ∃ m, getSimStepsN prec t u mode = .ok m ∧ 0 ≤ m ∧ (n = m ∨ m = 0 ∧ n = 1)) := by
  refine ⟨fun h => by simp [timerStepsN, h], fun n h => ?_⟩
  unfold timerStepsN at h
  split at h
  · cases h
  · rename_i hpos
    cases hs : getSimStepsN prec t u mode with
    | error er => rw [hs] at h; cases h
    | ok m =>
      rw [hs] at h
      simp only at h
      have flpos : ∀ b p : Nat, 1 < b → 1 ≤ p → ∀ z : ℚ, 0 ≤ z → 0 ≤ roundDigits b p z := by
        intro b p hb hp' z hz
        have := roundDigits_mono b p hb hp' 0 z hz
        simpa [roundDigits] using this
      have hf : ∀ z : ℚ, 0 ≤ z → 0 ≤ fl z := flpos 2 53 (by omega) (by omega)
      have hd : ∀ z : ℚ, 0 ≤ z → 0 ≤ dl z := flpos 10 28 (by omega) (by omega)
      have ht : 0 ≤ t.val := by linarith
      have hv : ∀ k : Int, 0 ≤ (ldexp10N t k).val := by
        intro k
        unfold ldexp10N
        split
        all_goals
          cases t with
          | int z =>
            have hz : (0 : ℚ) ≤ (z : ℚ) := ht
            first
            | exact hf _ (div_nonneg hz (by positivity))
            | (have hz' : 0 ≤ z := by exact_mod_cast hz
               simp only [Num.mul, Num.val]; push_cast; exact mul_nonneg hz (by positivity))
          | float z =>
            have hz : (0 : ℚ) ≤ z := ht
            have := hf ((10 ^ k.toNat : ℕ) : ℚ) (by positivity)
            have := hf ((10 ^ (-k).toNat : ℕ) : ℚ) (by positivity)
            simp only [Num.mul, Num.div, Num.val]
            first
            | exact hf _ (mul_nonneg hz (by assumption))
            | exact hf _ (div_nonneg hz (by assumption))
          | frac z =>
            have hz : (0 : ℚ) ≤ z := ht
            simp only [Num.mul, Num.div, Num.val]
            positivity
          | dec z =>
            have hz : (0 : ℚ) ≤ z := ht
            simp only [Num.mul, Num.div, Num.val]
            exact hd _ (by positivity)
      have hm : 0 ≤ m := by
        have hr : ∀ y : ℚ, 0 ≤ y → roundSteps y mode = .ok m → 0 ≤ m := by
          intro y hy h'
          rw [roundSteps_iff] at h'
          have h0 : Rounds mode 0 0 := by
            unfold Rounds at h' ⊢
            rcases h' with ⟨hm, _⟩ | ⟨hm, _⟩ | ⟨hm, _⟩ | ⟨hm, _⟩ <;> simp [hm]
          exact Rounds.mono h0 h' hy
        unfold getSimStepsN at hs
        split at hs
        · exact hr _ ht hs
        · split at hs
          · exact hr _ (hv _) hs
          · cases hs
      injection h with h
      refine ⟨?_, m, rfl, hm, ?_⟩
      · split at h <;> omega
      · split at h
        · right; omega
        · left; exact h.symm

example : timerStepsN (-9) (.float (fl (1 / 10))) "ps" "round" = .ok 1 ∧ timerStepsN (-12) (.float (fl (1 / 10))) "ns" "error" = .ok 100 := by
  decide +kernel

/-! ### C139: times returned -/

/-- The number of steps the simulator reports. -/
theorem getSimTimeN_eq (prec : Int) (hi lo : BitVec 32) (u : String) : getSimTimeN prec hi lo u =
    timeFromSimStepsN prec (.int (hi.toNat * 2 ^ 32 + lo.toNat : ℕ)) u := by
  have h : (hi.toNat <<< 32) ||| lo.toNat = hi.toNat * 2 ^ 32 + lo.toNat := by
    rw [Nat.shiftLeft_eq, mul_comm, ← Nat.two_pow_add_eq_or_of_lt lo.isLt]
  unfold getSimTimeN
  simp only [h]
  split
  · rfl
  · rename_i hu
    simp only [ne_eq, not_not] at hu
    simp [timeFromSimStepsN, hu]

/-- `get_sim_time(unit)`: in steps, or in a unit finer than the precision, it is the exact `int`; otherwise it is a `float`, and no
`float` is closer to the simulation time. -/
theorem C139_nearest (prec : Int) (hi lo : BitVec 32) (u : String) (e : Int) (he : unitExp prec u = some e) :
    ∃ t : ℚ, t * 10 ^ e = (hi.toNat * 2 ^ 32 + lo.toNat : ℕ) * 10 ^ prec ∧
      ((u = "step" ∨ e < prec) → ∃ n : ℤ, t = n ∧ getSimTimeN prec hi lo u = .ok (.int n)) ∧
      ((u ≠ "step" ∧ prec ≤ e) → ∃ y, NearestFloat t y ∧ getSimTimeN prec hi lo u = .ok (.float y)) := by
  rw [getSimTimeN_eq]
  generalize hi.toNat * 2 ^ 32 + lo.toNat = s
  refine ⟨(s : ℚ) * 10 ^ (prec - e), ?_, ?_, ?_⟩
  · rw [mul_assoc, ← zpow_add₀ (by norm_num)]; congr 2; ring
  · intro h
    by_cases hu : u = "step"
    · subst hu
      have : e = prec := by simp [unitExp] at he; omega
      subst this
      exact ⟨s, by simp, rfl⟩
    · have hlt : e < prec := h.resolve_left hu
      refine ⟨s * 10 ^ (prec - e).toNat, ?_, ?_⟩
      · rw [← pow10_toNat (by omega : 0 ≤ prec - e)]; push_cast; rfl
      · rw [timeFromSimStepsN_eq prec _ u e hu he, ldexp10N, if_pos (by omega)]
        simp [Num.mul]
  · rintro ⟨hu, hle⟩
    refine ⟨_, fl_nearest _, ?_⟩
    rw [timeFromSimStepsN_eq prec _ u e hu he, ldexp10N, if_neg (by omega)]
    simp only [Num.div, pow10_toNat (by omega : 0 ≤ -(prec - e)), Int.cast_natCast]
    rw [zpow_neg, div_inv_eq_mul]

/-- The value returned, as a number. -/
theorem sim_time_val (prec : Int) (hi lo : BitVec 32) (u : String) (v : Num) (hu : u ≠ "step") (e : Int) (he : unitExp prec u = some e)
    (h : getSimTimeN prec hi lo u = .ok v) : v = ldexp10N (.int (hi.toNat * 2 ^ 32 + lo.toNat : ℕ)) (prec - e) := by
  rw [getSimTimeN_eq, timeFromSimStepsN_eq prec _ u e hu he] at h
  injection h with h
  exact h.symm

/-- The simulation time never appears to run backwards. -/
theorem C139_monotone (prec : Int) (hi lo hi' lo' : BitVec 32) (u : String) (v v' : Num)
    (hle : hi.toNat * 2 ^ 32 + lo.toNat ≤ hi'.toNat * 2 ^ 32 + lo'.toNat)
    (h : getSimTimeN prec hi lo u = .ok v) (h' : getSimTimeN prec hi' lo' u = .ok v') : v.val ≤ v'.val := by
  have hq : ((hi.toNat * 2 ^ 32 + lo.toNat : ℕ) : ℚ) ≤ ((hi'.toNat * 2 ^ 32 + lo'.toNat : ℕ) : ℚ) := by exact_mod_cast hle
  by_cases hu : u = "step"
  · subst hu
    rw [getSimTimeN_eq] at h h'
    simp only [timeFromSimStepsN, if_true] at h h'
    injection h with h; injection h' with h'
    subst h; subst h'
    simp only [Num.val, Int.cast_natCast]
    exact hq
  · cases he : unitExp prec u with
    | none =>
      rw [getSimTimeN_eq] at h
      unfold timeFromSimStepsN at h
      rw [if_neg hu, logTimeScale_err prec u hu he] at h
      cases h
    | some e =>
      rw [sim_time_val prec hi lo u v hu e he h, sim_time_val prec hi' lo' u v' hu e he h']
      have hp := pow10_pos (prec - e)
      by_cases hpe : 0 < prec - e
      · rw [ldexp_int_pos _ _ hpe, ldexp_int_pos _ _ hpe]
        simp only [Int.cast_natCast]
        exact mul_le_mul_of_nonneg_right hq hp.le
      · rw [ldexp_int_neg _ _ (by omega), ldexp_int_neg _ _ (by omega)]
        simp only [Int.cast_natCast]
        exact fl_mono _ _ (mul_le_mul_of_nonneg_right hq hp.le)

/-- `convert` to a unit other than steps: the result stands for the whole number of steps that the time given is rounded to. It is an
exact `int` in a unit finer than the precision, and otherwise the `float` nearest to that duration. -/
theorem C139_convert (prec : Int) (v r : Num) (u w mode : String) (f : Int) (hu : u ≠ "step") (hw : w ≠ "step")
    (hf : unitExp prec w = some f) (h : convertN prec v u w mode = .ok r) :
    ∃ (n : ℤ) (t : ℚ), getSimStepsN prec v u mode = .ok n ∧ t * 10 ^ f = n * 10 ^ prec ∧
      (f < prec → ∃ k : ℤ, t = k ∧ r = .int k) ∧ (prec ≤ f → ∃ y, NearestFloat t y ∧ r = .float y) := by
  unfold convertN at h
  simp only [hu, hw, if_false] at h
  cases hs : getSimStepsN prec v u mode with
  | error er => rw [hs] at h; cases h
  | ok n =>
    rw [hs] at h
    simp only at h
    rw [timeFromSimStepsN_eq prec _ w f hw hf] at h
    injection h with h
    subst h
    refine ⟨n, (n : ℚ) * 10 ^ (prec - f), rfl, ?_, fun hlt => ?_, fun hle => ?_⟩
    · rw [mul_assoc, ← zpow_add₀ (by norm_num)]; congr 2; ring
    · refine ⟨n * 10 ^ (prec - f).toNat, ?_, ?_⟩
      · rw [← pow10_toNat (by omega : 0 ≤ prec - f)]; push_cast; rfl
      · rw [ldexp10N, if_pos (by omega)]
        simp [Num.mul]
    · refine ⟨_, fl_nearest _, ?_⟩
      rw [ldexp10N, if_neg (by omega)]
      simp only [Num.div, pow10_toNat (by omega : 0 ≤ -(prec - f))]
      rw [zpow_neg, div_inv_eq_mul]

example : convertN (-12) (.frac (7 / 2)) "us" "ns" "error" = .ok (.float 3500) ∧
    convertN (-9) (.int 3) "us" "ps" "error" = .ok (.int 3000000) := by decide +kernel

/-- A time that was read can be converted back to the steps it stands for, in mode `'round'`, below `2^51` steps; in mode
`'error'` the conversion gives these steps or raises `ValueError`. -/
theorem C139_back (prec : Int) (hi lo : BitVec 32) (u : String) (v : Num) (hp : -15 ≤ prec ∧ prec ≤ 2)
    (hs : hi.toNat * 2 ^ 32 + lo.toNat < 2 ^ 51) (h : getSimTimeN prec hi lo u = .ok v) :
    convertN prec v u "step" "round" = .ok (.int (hi.toNat * 2 ^ 32 + lo.toNat : ℕ)) ∧
    (convertN prec v u "step" "error" = .ok (.int (hi.toNat * 2 ^ 32 + lo.toNat : ℕ)) ∨
      convertN prec v u "step" "error" = .error .valueError) := by
  by_cases hu : u = "step"
  · subst hu
    rw [getSimTimeN_eq] at h
    simp only [timeFromSimStepsN, if_true] at h
    injection h with h
    subst h
    exact ⟨rfl, .inl rfl⟩
  · cases he : unitExp prec u with
    | none =>
      rw [getSimTimeN_eq] at h
      unfold timeFromSimStepsN at h
      rw [if_neg hu, logTimeScale_err prec u hu he] at h
      cases h
    | some e =>
      obtain ⟨t, ht, h1, h2⟩ := C139_nearest prec hi lo u e he
      generalize hi.toNat * 2 ^ 32 + lo.toNat = s at *
      have hn : |(s : ℤ)| < 2 ^ 51 := by rw [abs_of_nonneg (by omega)]; exact_mod_cast hs
      have ht' : t * 10 ^ e = ((s : ℤ) : ℚ) * 10 ^ prec := by simpa using ht
      have key : getSimStepsN prec v u "round" = .ok (s : ℤ) ∧
          (getSimStepsN prec v u "error" = .ok (s : ℤ) ∨ getSimStepsN prec v u "error" = .error .valueError) := by
        by_cases hpe : e < prec
        · obtain ⟨n, rfl, h3⟩ := h1 (.inr hpe)
          rw [h] at h3
          injection h3 with h3
          subst h3
          have hr := unitExp_range hu he
          have ex : ∀ mode, mode ∈ ["error", "floor", "ceil", "round"] → getSimStepsN prec (.int n) u mode = .ok (s : ℤ) := by
            intro mode hm
            rw [getSimStepsN_eq prec _ u mode e hu he, ldexp_int_neg _ _ (by omega)]
            have : (n : ℚ) * 10 ^ (e - prec) = ((s : ℤ) : ℚ) := by
              rw [zpow_sub₀ (by norm_num), ← mul_div_assoc, ht', mul_div_cancel_right₀ _ (pow10_pos prec).ne']
            rw [this, fl_int _ (by omega)]
            exact roundSteps_int _ mode hm
          exact ⟨ex _ (by simp), .inl (ex _ (by simp))⟩
        · obtain ⟨y, hy, h3⟩ := h2 ⟨hu, by omega⟩
          rw [h] at h3
          injection h3 with h3
          subst h3
          have := C138_float prec y t s u e hp hu he ht' hy hn
          exact ⟨this.1, this.2.1⟩
      have conv : ∀ mode, convertN prec v u "step" mode = match getSimStepsN prec v u mode with
          | .ok n => .ok (.int n)
          | .error er => .error er := by
        intro mode
        unfold convertN
        simp only [hu, if_false]
        cases getSimStepsN prec v u mode <;> simp
      rw [conv, conv, key.1]
      refine ⟨rfl, ?_⟩
      rcases key.2 with k | k <;> rw [k]
      · exact .inl rfl
      · exact .inr rfl

/-- Two moments below `2^51` steps are read as different times. -/
theorem C139_distinct (prec : Int) (hi lo hi' lo' : BitVec 32) (u : String) (v : Num) (hp : -15 ≤ prec ∧ prec ≤ 2)
    (hs : hi.toNat * 2 ^ 32 + lo.toNat < 2 ^ 51) (hs' : hi'.toNat * 2 ^ 32 + lo'.toNat < 2 ^ 51)
    (h : getSimTimeN prec hi lo u = .ok v) (h' : getSimTimeN prec hi' lo' u = .ok v) : hi = hi' ∧ lo = lo' := by
  have h1 := (C139_back prec hi lo u v hp hs h).1
  rw [(C139_back prec hi' lo' u v hp hs' h').1] at h1
  injection h1 with h1
  injection h1 with h1
  have := hi.isLt; have := lo.isLt; have := hi'.isLt; have := lo'.isLt
  constructor <;> apply BitVec.eq_of_toNat_eq <;> omega

/-- The time read is the simulation time, exactly. -/
def C139_exact_full : Prop :=
  ∀ (prec : Int) (hi lo : BitVec 32) (u : String) (e : Int) (v : Num), -15 ≤ prec ∧ prec ≤ 2 → unitExp prec u = some e →
    getSimTimeN prec hi lo u = .ok v → v.val * 10 ^ e = (hi.toNat * 2 ^ 32 + lo.toNat : ℕ) * 10 ^ prec

/-- False of the code, even in the unit of the precision: after `2^53 + 1` femtoseconds the time read is `2^53`. -/
theorem C139_exact_counterexample : ¬ C139_exact_full := by
  intro h
  have := h (-15) (2 ^ 21) 1 "fs" (-15) (.float (2 ^ 53)) (by omega) (by decide +kernel) (by decide +kernel)
  have e1 : ((2 ^ 21 : BitVec 32).toNat * 2 ^ 32 + (1 : BitVec 32).toNat : ℕ) = 2 ^ 53 + 1 := by decide
  rw [e1] at this
  have := mul_right_cancel₀ (pow10_pos _).ne' this
  norm_num [Num.val] at this

/-- A time that was read is accepted by the conversion to steps, in the default mode `'error'`. -/
def C139_back_full : Prop :=
  ∀ (prec : Int) (hi lo : BitVec 32) (u : String) (v : Num), -15 ≤ prec ∧ prec ≤ 2 → hi.toNat * 2 ^ 32 + lo.toNat < 2 ^ 51 →
    getSimTimeN prec hi lo u = .ok v → convertN prec v u "step" "error" = .ok (.int (hi.toNat * 2 ^ 32 + lo.toNat : ℕ))

/-- False of the code: with a precision of 1 ps, the time read in ns after 1001 ps is refused. -/
theorem C139_back_counterexample : ¬ C139_back_full := by
  intro h
  have := h (-12) 0 1001 "ns" (.float (fl (1001 / 1000))) (by omega) (by decide) (by decide +kernel)
  revert this
  decide +kernel

/-- The time read is exact if it is a whole number of units below `2^53`, or in a unit finer than the precision. Missing: see
`C139_exact_counterexample`. -/
theorem C139_exact_partial (prec : Int) (hi lo : BitVec 32) (u : String) (e : Int) (v : Num) (he : unitExp prec u = some e)
    (hw : e < prec ∨ ∃ n : ℤ, |n| < 2 ^ 53 ∧ (n : ℚ) * 10 ^ e = (hi.toNat * 2 ^ 32 + lo.toNat : ℕ) * 10 ^ prec)
    (h : getSimTimeN prec hi lo u = .ok v) : v.val * 10 ^ e = (hi.toNat * 2 ^ 32 + lo.toNat : ℕ) * 10 ^ prec := by
  obtain ⟨t, ht, h1, h2⟩ := C139_nearest prec hi lo u e he
  by_cases hc : u = "step" ∨ e < prec
  · obtain ⟨n, rfl, h3⟩ := h1 hc
    rw [h] at h3
    injection h3 with h3
    subst h3
    exact ht
  · push Not at hc
    obtain ⟨y, hy, h3⟩ := h2 hc
    rw [h] at h3
    injection h3 with h3
    subst h3
    rcases hw with hw | ⟨n, hn, hw⟩
    · omega
    · have htn : t = n := mul_right_cancel₀ (pow10_pos e).ne' (by rw [ht, hw])
      have := hy.2 t (by rw [htn]; exact digits_int 2 53 n (by exact_mod_cast hn))
      rw [sub_self, abs_zero] at this
      have := abs_nonpos_iff.1 this
      have hyt : y = t := by linarith
      rw [← ht, ← hyt]; rfl

example : getSimTimeN (-12) 0 1500 "ns" = .ok (.float (3 / 2)) ∧ getSimTimeN (-9) 0 3 "ps" = .ok (.int 3000) ∧
    getSimTimeN (-12) 0 3 "step" = .ok (.int 3) ∧ getSimTimeN (-12) 0 2000 "ns" = .ok (.float 2) := by decide +kernel

end Verif
