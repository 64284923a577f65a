import Verif.Model.NumTime
import Verif.Spec.NumTime
import Verif.Props.SimTime
/-!
# Lemmas on rounding to significant digits
-/
namespace Verif
open Spec SimTime NumTime

theorem pyRound_nearest (x : ℚ) (k : ℤ) : |x - pyRound x| ≤ |x - k| := by
  obtain ⟨h, _⟩ := pyRound_spec x
  rcases eq_or_ne (pyRound x) k with e | e
  · rw [e]
  · have h1 : (1 : ℚ) ≤ |((pyRound x - k : ℤ) : ℚ)| := by
      have : (1 : ℤ) ≤ |pyRound x - k| := Int.one_le_abs (sub_ne_zero.2 e)
      exact_mod_cast this
    push_cast at h1
    have h2 : |(pyRound x : ℚ) - k| ≤ |x - pyRound x| + |x - k| := by
      have := abs_sub_le (pyRound x : ℚ) x k
      rwa [abs_sub_comm (pyRound x : ℚ) x] at this
    linarith

/-- The scale `roundDigits` uses. -/
theorem roundDigits_scale (b p : Nat) (hb : 1 < b) (x : ℚ) (hx : x ≠ 0) :
    (b : ℚ) ^ (p : ℤ) * (b : ℚ) ^ (Int.log b |x| - p + 1) = (b : ℚ) ^ (Int.log b |x| + 1) ∧
    (b : ℚ) ^ ((p : ℤ) - 1) * (b : ℚ) ^ (Int.log b |x| - p + 1) ≤ |x| ∧
    |x| < (b : ℚ) ^ (p : ℤ) * (b : ℚ) ^ (Int.log b |x| - p + 1) := by
  have hb0 : (b : ℚ) ≠ 0 := by positivity
  have hpos : 0 < |x| := abs_pos.2 hx
  have e1 : (b : ℚ) ^ (p : ℤ) * (b : ℚ) ^ (Int.log b |x| - p + 1) = (b : ℚ) ^ (Int.log b |x| + 1) := by
    rw [← zpow_add₀ hb0]; congr 1; ring
  have e2 : (b : ℚ) ^ ((p : ℤ) - 1) * (b : ℚ) ^ (Int.log b |x| - p + 1) = (b : ℚ) ^ (Int.log b |x|) := by
    rw [← zpow_add₀ hb0]; congr 1; ring
  refine ⟨e1, ?_, ?_⟩
  · rw [e2]; exact Int.zpow_log_le_self hb hpos
  · rw [e1]; exact Int.lt_zpow_succ_log_self hb _

/-- Distance between `roundDigits` and any multiple of its scale. -/
theorem roundDigits_mult (b p : Nat) (hb : 1 < b) (x : ℚ) (hx : x ≠ 0) (k : ℤ) :
    |x - roundDigits b p x| ≤ |x - k * (b : ℚ) ^ (Int.log b |x| - p + 1)| := by
  unfold roundDigits
  rw [if_neg hx]
  simp only
  have hs : (0 : ℚ) < (b : ℚ) ^ (Int.log b |x| - p + 1) := zpow_pos (by positivity) _
  generalize (b : ℚ) ^ (Int.log b |x| - p + 1) = s at *
  have := pyRound_nearest (x / s) k
  have key : ∀ c : ℚ, |x - c * s| = |x / s - c| * s := by
    intro c
    rw [← abs_of_pos hs, ← abs_mul, abs_of_pos hs]
    congr 1; field_simp
  rw [key, key]
  exact mul_le_mul_of_nonneg_right this hs.le

theorem roundDigits_err (b p : Nat) (hb : 1 < b) (x : ℚ) :
    |x - roundDigits b p x| ≤ |x| / (2 * (b : ℚ) ^ ((p : ℤ) - 1)) := by
  rcases eq_or_ne x 0 with rfl | hx
  · simp [roundDigits]
  · obtain ⟨_, h1, _⟩ := roundDigits_scale b p hb x hx
    unfold roundDigits
    rw [if_neg hx]
    simp only
    have hs : (0 : ℚ) < (b : ℚ) ^ (Int.log b |x| - p + 1) := zpow_pos (by positivity) _
    have hq : (0 : ℚ) < (b : ℚ) ^ ((p : ℤ) - 1) := zpow_pos (by positivity) _
    generalize (b : ℚ) ^ (Int.log b |x| - p + 1) = s at *
    generalize (b : ℚ) ^ ((p : ℤ) - 1) = q at *
    obtain ⟨h, _⟩ := pyRound_spec (x / s)
    have key : |x - pyRound (x / s) * s| = |x / s - pyRound (x / s)| * s := by
      rw [← abs_of_pos hs, ← abs_mul, abs_of_pos hs]
      congr 1; field_simp
    rw [key, le_div_iff₀ (by positivity)]
    have := mul_le_mul_of_nonneg_right h (by positivity : (0 : ℚ) ≤ s * (2 * q))
    linarith

theorem roundDigits_digits (b p : Nat) (hb : 1 < b) (hp : 1 ≤ p) (x : ℚ) : Digits b p (roundDigits b p x) := by
  rcases eq_or_ne x 0 with rfl | hx
  · refine ⟨0, 0, by simp [roundDigits], ?_⟩
    simp only [abs_zero]; positivity
  · obtain ⟨_, h1, h2⟩ := roundDigits_scale b p hb x hx
    unfold roundDigits
    rw [if_neg hx]
    simp only
    generalize he : Int.log b |x| - p + 1 = e at *
    have hs : (0 : ℚ) < (b : ℚ) ^ e := zpow_pos (by positivity) _
    obtain ⟨h, _⟩ := pyRound_spec (x / (b : ℚ) ^ e)
    have hxs : |x / (b : ℚ) ^ e| < (b : ℚ) ^ p := by
      rw [abs_div, abs_of_pos hs, div_lt_iff₀ hs]
      simpa using h2
    generalize pyRound (x / (b : ℚ) ^ e) = r at *
    have hr : |(r : ℚ)| < (b : ℚ) ^ p + 1 := by
      have : |(r : ℚ)| ≤ |(r : ℚ) - x / (b : ℚ) ^ e| + |x / (b : ℚ) ^ e| := by
        have := abs_add_le ((r : ℚ) - x / (b : ℚ) ^ e) (x / (b : ℚ) ^ e)
        simpa using this
      rw [abs_sub_comm] at this
      linarith
    have hr' : |r| ≤ (b : ℤ) ^ p := by
      have : |r| < (b : ℤ) ^ p + 1 := by exact_mod_cast hr
      omega
    rcases lt_or_eq_of_le hr' with hlt | heq
    · exact ⟨r, e, rfl, hlt⟩
    · obtain ⟨q, rfl⟩ : ∃ q, p = q + 1 := ⟨p - 1, by omega⟩
      have hbq : (0 : ℤ) < (b : ℤ) ^ q := by positivity
      have hcl : (b : ℤ) ^ q < (b : ℤ) ^ (q + 1) := by
        rw [pow_succ]
        have : (1 : ℤ) < b := by exact_mod_cast hb
        nlinarith
      rcases abs_choice r with hc | hc
      · refine ⟨(b : ℤ) ^ q, e + 1, ?_, by rw [abs_of_pos hbq]; exact hcl⟩
        rw [hc] at heq
        rw [heq, zpow_add₀ (by positivity)]
        push_cast
        rw [pow_succ]; simp; ring
      · refine ⟨-(b : ℤ) ^ q, e + 1, ?_, by rw [abs_neg, abs_of_pos hbq]; exact hcl⟩
        have hrr : r = -((b : ℤ) ^ (q + 1)) := by rw [hc] at heq; omega
        rw [hrr, zpow_add₀ (by positivity)]
        push_cast
        rw [pow_succ]; simp; ring

/-- `roundDigits` is as close as `p` digits can get. -/
theorem roundDigits_nearest (b p : Nat) (hb : 1 < b) (hp : 1 ≤ p) (x z : ℚ) (hz : Digits b p z) :
    |x - roundDigits b p x| ≤ |x - z| := by
  rcases eq_or_ne x 0 with rfl | hx
  · simp [roundDigits]
  · obtain ⟨m, f, rfl, hm⟩ := hz
    obtain ⟨_, h1, _⟩ := roundDigits_scale b p hb x hx
    have hmult := roundDigits_mult b p hb x hx
    generalize Int.log b |x| - p + 1 = e at *
    have hb0 : (b : ℚ) ≠ 0 := by positivity
    have hb1 : (1 : ℚ) < b := by exact_mod_cast hb
    rcases le_or_gt e f with hef | hef
    · obtain ⟨d, rfl⟩ : ∃ d : ℕ, f = e + d := ⟨(f - e).toNat, by omega⟩
      have := hmult (m * (b : ℤ) ^ d)
      rw [zpow_add₀ hb0]
      push_cast at this
      simp only [zpow_natCast]
      have e2 : (m : ℚ) * ((b : ℚ) ^ e * (b : ℚ) ^ d) = (m : ℚ) * (b : ℚ) ^ d * (b : ℚ) ^ e := by ring
      rwa [e2]
    · obtain ⟨q, rfl⟩ : ∃ q, p = q + 1 := ⟨p - 1, by omega⟩
      have hzc : |(m : ℚ) * (b : ℚ) ^ f| < (b : ℚ) ^ q * (b : ℚ) ^ e := by
        rw [abs_mul, abs_of_pos (zpow_pos (by positivity : (0 : ℚ) < b) f)]
        have hmq : |(m : ℚ)| < (b : ℚ) ^ (q + 1) := by exact_mod_cast hm
        have hfe : (b : ℚ) ^ f ≤ (b : ℚ) ^ (e - 1) := zpow_le_zpow_right₀ hb1.le (by omega)
        have hf0 : (0 : ℚ) < (b : ℚ) ^ f := zpow_pos (by positivity) f
        have hle : (b : ℚ) ^ (q + 1) * (b : ℚ) ^ f ≤ (b : ℚ) ^ (q + 1) * (b : ℚ) ^ (e - 1) :=
          mul_le_mul_of_nonneg_left hfe (by positivity)
        have hee : (b : ℚ) ^ (q + 1) * (b : ℚ) ^ (e - 1) = (b : ℚ) ^ q * (b : ℚ) ^ e := by
          rw [zpow_sub₀ hb0, pow_succ]; field_simp
        nlinarith
      have h1' : (b : ℚ) ^ q * (b : ℚ) ^ e ≤ |x| := by
        have : (((q + 1 : ℕ) : ℤ) - 1) = (q : ℤ) := by omega
        rw [this] at h1; simpa using h1
      generalize (m : ℚ) * (b : ℚ) ^ f = z at *
      rw [abs_lt] at hzc
      rcases lt_or_gt_of_ne hx with hneg | hpos
      · have := hmult (-(b : ℤ) ^ q)
        push_cast at this
        rw [abs_of_neg hneg] at h1'
        refine this.trans ?_
        rw [abs_of_nonpos (by linarith), abs_of_nonpos (by linarith)]
        linarith
      · have := hmult ((b : ℤ) ^ q)
        push_cast at this
        rw [abs_of_pos hpos] at h1'
        refine this.trans ?_
        rw [abs_of_nonneg (by linarith), abs_of_nonneg (by linarith)]
        linarith

theorem roundDigits_exact (b p : Nat) (hb : 1 < b) (hp : 1 ≤ p) (x : ℚ) (hx : Digits b p x) :
    roundDigits b p x = x := by
  have := roundDigits_nearest b p hb hp x x hx
  rw [sub_self, abs_zero] at this
  have := abs_nonpos_iff.1 this
  linarith

theorem roundDigits_mono (b p : Nat) (hb : 1 < b) (hp : 1 ≤ p) (x y : ℚ) (hxy : x ≤ y) :
    roundDigits b p x ≤ roundDigits b p y := by
  by_contra hlt
  push Not at hlt
  have h1 := roundDigits_nearest b p hb hp x _ (roundDigits_digits b p hb hp y)
  have h2 := roundDigits_nearest b p hb hp y _ (roundDigits_digits b p hb hp x)
  rcases eq_or_lt_of_le hxy with rfl | hlt'
  · exact lt_irrefl _ hlt
  · generalize roundDigits b p x = u at *
    generalize roundDigits b p y = v at *
    have a1 : (x - u) ^ 2 ≤ (x - v) ^ 2 := sq_le_sq.2 h1
    have a2 : (y - v) ^ 2 ≤ (y - u) ^ 2 := sq_le_sq.2 h2
    nlinarith

theorem digits_int (b p : Nat) (n : ℤ) (h : |n| < (b : ℤ) ^ p) : Digits b p n := ⟨n, 0, by simp, h⟩

theorem fl_digits (x : ℚ) : IsFloat (fl x) := roundDigits_digits 2 53 (by omega) (by omega) x
theorem fl_exact (x : ℚ) (h : IsFloat x) : fl x = x := roundDigits_exact 2 53 (by omega) (by omega) x h
theorem fl_mono (x y : ℚ) (h : x ≤ y) : fl x ≤ fl y := roundDigits_mono 2 53 (by omega) (by omega) x y h
theorem fl_nearest (x : ℚ) : NearestFloat x (fl x) :=
  ⟨fl_digits x, fun z hz => roundDigits_nearest 2 53 (by omega) (by omega) x z hz⟩
theorem fl_err (x : ℚ) : |x - fl x| ≤ |x| / 2 ^ 53 := by
  have := roundDigits_err 2 53 (by omega) x
  refine this.trans (le_of_eq ?_)
  norm_num
theorem fl_int (n : ℤ) (h : |n| < 2 ^ 53) : fl n = n := fl_exact _ (digits_int 2 53 n (by exact_mod_cast h))

/-- The powers of ten up to `10^22` are floating point numbers. -/
theorem fl_pow10 (k : Nat) (h : k ≤ 22) : fl ((10 ^ k : ℕ) : ℚ) = ((10 ^ k : ℕ) : ℚ) := by
  apply fl_exact
  refine ⟨5 ^ k, k, ?_, ?_⟩
  · push_cast
    rw [zpow_natCast, ← mul_pow]; norm_num
  · rw [abs_of_pos (by positivity)]
    calc (5 : ℤ) ^ k ≤ 5 ^ 22 := pow_le_pow_right₀ (by norm_num) h
      _ < _ := by norm_num

/-- Scaling by a power of ten keeps decimal digits. -/
theorem digits_scale (p : Nat) (x : ℚ) (e : ℤ) (h : Digits 10 p x) : Digits 10 p (x * 10 ^ e) := by
  obtain ⟨m, f, rfl, hm⟩ := h
  refine ⟨m, f + e, ?_, hm⟩
  push_cast
  rw [zpow_add₀ (by norm_num), mul_assoc]

theorem getSimStepsN_eq (prec : Int) (t : Num) (u mode : String) (e : Int) (hu : u ≠ "step") (he : unitExp prec u = some e) :
    getSimStepsN prec t u mode = roundSteps (ldexp10N t (e - prec)).val mode := by
  unfold getSimStepsN
  rw [if_neg hu, (logTimeScale_iff prec u hu e).2 he]

theorem timeFromSimStepsN_eq (prec : Int) (t : Num) (u : String) (e : Int) (hu : u ≠ "step") (he : unitExp prec u = some e) :
    timeFromSimStepsN prec t u = .ok (ldexp10N t (prec - e)) := by
  unfold timeFromSimStepsN
  rw [if_neg hu, (logTimeScale_iff prec u hu e).2 he]

theorem unitExp_range {prec : Int} {u : String} {e : Int} (hu : u ≠ "step") (he : unitExp prec u = some e) : -15 ≤ e ∧ e ≤ 0 := by
  unfold unitExp at he
  rw [if_neg hu] at he
  repeat' split at he
  all_goals first | (injection he with he; omega) | exact absurd he (by simp)

theorem pow10_toNat {e : Int} (h : 0 ≤ e) : (((10 ^ e.toNat : ℕ)) : ℚ) = (10 : ℚ) ^ e := by
  obtain ⟨n, rfl⟩ : ∃ n : Nat, e = n := ⟨e.toNat, by omega⟩
  simp

theorem ldexp_frac (x : ℚ) (e : Int) : (ldexp10N (.frac x) e).val = x * 10 ^ e := by
  unfold ldexp10N
  split
  · simp only [Num.mul, Num.val, pow10_toNat (by omega : 0 ≤ e)]
  · simp only [Num.div, Num.val, pow10_toNat (by omega : 0 ≤ -e), zpow_neg, div_inv_eq_mul]

theorem ldexp_dec (x : ℚ) (e : Int) : (ldexp10N (.dec x) e).val = dl (x * 10 ^ e) := by
  unfold ldexp10N
  split
  · simp only [Num.mul, Num.val, pow10_toNat (by omega : 0 ≤ e)]
  · simp only [Num.div, Num.val, pow10_toNat (by omega : 0 ≤ -e), zpow_neg, div_inv_eq_mul]

theorem ldexp_float (x : ℚ) (e : Int) (h1 : -22 ≤ e) (h2 : e ≤ 22) : (ldexp10N (.float x) e).val = fl (x * 10 ^ e) := by
  unfold ldexp10N
  split
  · simp only [Num.mul, Num.val]
    rw [fl_pow10 _ (by omega : e.toNat ≤ 22), pow10_toNat (by omega : 0 ≤ e)]
  · simp only [Num.div, Num.val]
    rw [fl_pow10 _ (by omega : (-e).toNat ≤ 22), pow10_toNat (by omega : 0 ≤ -e), zpow_neg, div_inv_eq_mul]

theorem ldexp_int_pos (n : ℤ) (e : Int) (h : 0 < e) : (ldexp10N (.int n) e).val = n * 10 ^ e := by
  unfold ldexp10N
  rw [if_pos h]
  simp only [Num.mul, Num.val, ← pow10_toNat (by omega : 0 ≤ e)]
  push_cast; rfl

theorem ldexp_int_neg (n : ℤ) (e : Int) (h : e ≤ 0) : (ldexp10N (.int n) e).val = fl (n * 10 ^ e) := by
  unfold ldexp10N
  rw [if_neg (by omega)]
  simp only [Num.div, Num.val, pow10_toNat (by omega : 0 ≤ -e), zpow_neg, div_inv_eq_mul]

/-- Rounding `y` instead of `x` gives the same if `y` stays on the same side of every half of a whole number. -/
theorem roundSteps_same (x y : ℚ) (mode : String) (h : ∀ c : ℤ, (2 * x < c ↔ 2 * y < c) ∧ ((c : ℚ) < 2 * x ↔ (c : ℚ) < 2 * y)) :
    roundSteps y mode = roundSteps x mode := by
  have key : ∀ n : ℤ, Rounds mode y n ↔ Rounds mode x n := by
    intro n
    have a0 := h (2 * n)
    have a1 := h (2 * n + 2)
    have a2 := h (2 * n - 2)
    have a3 := h (2 * n + 1)
    have a4 := h (2 * n - 1)
    push_cast at a0 a1 a2 a3 a4
    have e1 : (n : ℚ) = x ↔ (n : ℚ) = y := by
      constructor
      · intro e
        by_contra hne
        rcases lt_or_gt_of_ne hne with hl | hl
        · have := a0.2.2 (by linarith); linarith
        · have := a0.1.2 (by linarith); linarith
      · intro e
        by_contra hne
        rcases lt_or_gt_of_ne hne with hl | hl
        · have := a0.2.1 (by linarith); linarith
        · have := a0.1.1 (by linarith); linarith
    have le1 : (n : ℚ) ≤ x ↔ (n : ℚ) ≤ y := by
      rw [← not_lt, ← not_lt, not_iff_not]
      constructor
      · intro hl; have := a0.1.1 (by linarith); linarith
      · intro hl; have := a0.1.2 (by linarith); linarith
    have le2 : x ≤ n ↔ y ≤ n := by
      rw [← not_lt, ← not_lt, not_iff_not]
      constructor
      · intro hl; have := a0.2.1 (by linarith); linarith
      · intro hl; have := a0.2.2 (by linarith); linarith
    have lt1 : x < n + 1 ↔ y < n + 1 := by
      constructor
      · intro hl; have := a1.1.1 (by linarith); linarith
      · intro hl; have := a1.1.2 (by linarith); linarith
    have lt2 : (n : ℚ) - 1 < x ↔ (n : ℚ) - 1 < y := by
      constructor
      · intro hl; have := a2.2.1 (by linarith); linarith
      · intro hl; have := a2.2.2 (by linarith); linarith
    have hle : |x - n| ≤ 1 / 2 ↔ |y - n| ≤ 1 / 2 := by
      rw [abs_le, abs_le]
      have b1 : 2 * x ≤ 2 * n + 1 ↔ 2 * y ≤ 2 * n + 1 := by
        rw [← not_lt, ← not_lt, not_iff_not]; exact a3.2
      have b2 : 2 * (n : ℚ) - 1 ≤ 2 * x ↔ 2 * (n : ℚ) - 1 ≤ 2 * y := by
        rw [← not_lt, ← not_lt, not_iff_not]; exact a4.1
      constructor
      · rintro ⟨u, v⟩
        have := b1.1 (by linarith)
        have := b2.1 (by linarith)
        constructor <;> linarith
      · rintro ⟨u, v⟩
        have := b1.2 (by linarith)
        have := b2.2 (by linarith)
        constructor <;> linarith
    have hlt : |x - n| < 1 / 2 ↔ |y - n| < 1 / 2 := by
      rw [abs_lt, abs_lt]
      constructor
      · rintro ⟨u, v⟩
        have := a3.1.1 (by linarith)
        have := a4.2.1 (by linarith)
        constructor <;> linarith
      · rintro ⟨u, v⟩
        have := a3.1.2 (by linarith)
        have := a4.2.2 (by linarith)
        constructor <;> linarith
    have heq : |x - n| = 1 / 2 ↔ |y - n| = 1 / 2 := by
      rw [eq_iff_le_not_lt, eq_iff_le_not_lt, hle, hlt]
    unfold Rounds
    rw [e1, le1, le2, lt1, lt2, hle, heq]
  cases hx : roundSteps x mode with
  | ok n => rw [roundSteps_iff, key, ← roundSteps_iff]; exact hx
  | error er =>
    cases hy : roundSteps y mode with
    | ok n => rw [roundSteps_iff, key, ← roundSteps_iff, hx] at hy; cases hy
    | error er' =>
      have err : ∀ z er, roundSteps z mode = .error er → er = .valueError := by
        intro z er hz
        unfold roundSteps at hz
        repeat' (first | split at hz | simp only at hz)
        all_goals first | (injection hz with hz; exact hz.symm) | exact absurd hz (by simp)
      rw [err x er hx, err y er' hy]

/-- The same, when `y` is close to `x` and `x` is not closer than that to any half of a whole number, unless it is one. -/
theorem roundSteps_near (x y d : ℚ) (mode : String) (hd : |x - y| < d) (hx : ∀ c : ℤ, 2 * x ≠ c → 2 * d ≤ |2 * x - c|)
    (he : ∀ c : ℤ, 2 * x = c → y = x) : roundSteps y mode = roundSteps x mode := by
  refine roundSteps_same x y mode fun c => ?_
  rw [abs_lt] at hd
  rcases eq_or_ne (2 * x) c with h | h
  · rw [he c h]; simp
  · have := hx c h
    rcases lt_or_gt_of_ne h with hl | hl
    · rw [abs_of_neg (by linarith)] at this
      constructor <;> constructor <;> intro _ <;> linarith
    · rw [abs_of_pos (by linarith)] at this
      constructor <;> constructor <;> intro _ <;> linarith

theorem nearest_err {x y : ℚ} (h : NearestFloat x y) : |x - y| ≤ |x| / 2 ^ 53 :=
  (h.2 _ (fl_digits x)).trans (fl_err x)

/-- What a whole number is rounded to. -/
theorem roundSteps_int (n : ℤ) (mode : String) (hm : mode ∈ ["error", "floor", "ceil", "round"]) :
    roundSteps (n : ℚ) mode = .ok n := by
  rw [roundSteps_iff]
  unfold Rounds
  simp only [List.mem_cons, List.not_mem_nil, or_false] at hm
  rcases hm with rfl | rfl | rfl | rfl <;> norm_num

/-- An `int` over a power of ten, below `2^53`. -/
theorem fl_int_scale (n : ℤ) (e : Int) (mode : String) (he : e ≤ 0) (hn : |n| < 2 ^ 53) :
    roundSteps (fl (n * 10 ^ e)) mode = roundSteps (n * 10 ^ e) mode := by
  obtain ⟨k, rfl⟩ : ∃ k : ℕ, e = -(k : ℤ) := ⟨(-e).toNat, by omega⟩
  have hz : (10 : ℚ) ^ (-(k : ℤ)) = ((10 : ℚ) ^ k)⁻¹ := by rw [zpow_neg, zpow_natCast]
  have hk : (0 : ℚ) < 10 ^ k := by positivity
  have hnq : |(n : ℚ)| < 2 ^ 53 := by exact_mod_cast hn
  rw [hz]
  rcases Nat.eq_zero_or_pos k with rfl | hk1
  · simp only [pow_zero, inv_one, mul_one]
    rw [fl_int n hn]
  refine roundSteps_near _ _ (((10 : ℚ) ^ k)⁻¹) mode ?_ ?_ ?_
  · refine (fl_err _).trans_lt ?_
    rw [abs_mul, abs_of_pos (inv_pos.2 hk)]
    have : 0 < ((10 : ℚ) ^ k)⁻¹ := inv_pos.2 hk
    rw [div_lt_iff₀ (by positivity)]
    nlinarith
  · intro c hc
    have e1 : 2 * ((n : ℚ) * ((10 : ℚ) ^ k)⁻¹) - c = ((2 * n - c * 10 ^ k : ℤ) : ℚ) * ((10 : ℚ) ^ k)⁻¹ := by
      push_cast; field_simp
    rw [e1, abs_mul, abs_of_pos (inv_pos.2 hk)]
    refine mul_le_mul_of_nonneg_right ?_ (inv_pos.2 hk).le
    have hne : 2 * n - c * 10 ^ k ≠ 0 := by
      intro h0
      apply hc
      rw [← sub_eq_zero, e1, h0]; simp
    have h2 : (2 : ℤ) ≤ |2 * n - c * 10 ^ k| := by
      cases k with
      | zero => omega
      | succ k =>
        have : 2 * n - c * 10 ^ (k + 1) = 2 * (n - c * 5 * 10 ^ k) := by rw [pow_succ]; ring
        rw [this, abs_mul]
        have : n - c * 5 * 10 ^ k ≠ 0 := by rintro h0; apply hne; rw [this, h0]; simp
        have := Int.one_le_abs this
        norm_num; omega
    exact_mod_cast h2
  · intro c hc
    apply fl_exact
    refine ⟨c, -1, ?_, ?_⟩
    · rw [← hc]; norm_num; ring
    · have h10 : (2 : ℚ) ≤ 10 ^ k := by
        calc (2 : ℚ) ≤ 10 ^ 1 := by norm_num
          _ ≤ 10 ^ k := pow_le_pow_right₀ (by norm_num) hk1
      have : |(c : ℚ)| < 2 ^ 53 := by
        rw [← hc, abs_mul, abs_mul, abs_of_pos (inv_pos.2 hk), abs_of_pos (by norm_num : (0 : ℚ) < 2), ← mul_assoc,
          ← div_eq_mul_inv, div_lt_iff₀ hk]
        have : 0 ≤ |(n : ℚ)| := abs_nonneg _
        nlinarith
      exact_mod_cast this

end Verif
