import Verif.Model.SimTime
import Verif.Spec.SimTime
import Mathlib.Algebra.Order.Field.Power
import Mathlib.Tactic.Linarith
import Mathlib.Tactic.FieldSimp
import Mathlib.Tactic.Ring
/-!
# Simulation time and `Timer`: C22, C23, C24, C69, C73
-/
namespace Verif
open Spec SimTime

theorem logTimeScale_iff (prec : Int) (u : String) (hu : u ≠ "step") (e : Int) :
    logTimeScale u = .ok e ↔ unitExp prec u = some e := by
  unfold logTimeScale unitExp
  rw [if_neg hu]
  split <;> simp_all

theorem logTimeScale_err (prec : Int) (u : String) (hu : u ≠ "step") (h : unitExp prec u = none) :
    logTimeScale u = .error .valueError := by
  unfold unitExp at h
  unfold logTimeScale
  rw [if_neg hu] at h
  split <;> simp_all

theorem ldexp10_eq (x : ℚ) (e : Int) : ldexp10 x e = x * (10 : ℚ) ^ e := by
  unfold ldexp10
  split
  · rename_i h
    obtain ⟨n, rfl⟩ : ∃ n : Nat, e = n := ⟨e.toNat, by omega⟩
    simp
  · rename_i h
    obtain ⟨n, rfl⟩ : ∃ n : Nat, e = -(n : Int) := ⟨(-e).toNat, by omega⟩
    simp [zpow_neg, div_eq_mul_inv]

theorem pow10_pos (e : Int) : (0 : ℚ) < (10 : ℚ) ^ e := zpow_pos (by norm_num) e

theorem rat_floor_eq (x : ℚ) : x.floor = ⌊x⌋ := rfl
theorem rat_ceil_eq (x : ℚ) : x.ceil = ⌈x⌉ := by
  rw [Rat.ceil_eq_neg_floor_neg, rat_floor_eq, Int.floor_neg, neg_neg]

theorem pyRound_spec (x : ℚ) : |x - pyRound x| ≤ 1 / 2 ∧ (|x - pyRound x| = 1 / 2 → pyRound x % 2 = 0) := by
  unfold pyRound
  have h1 : (x.floor : ℚ) ≤ x := Int.floor_le x
  have h2 : x < x.floor + 1 := Int.lt_floor_add_one x
  simp only
  generalize x.floor = f at *
  split
  · rw [abs_of_nonneg (by linarith)]
    exact ⟨by linarith, fun h => by linarith⟩
  · split
    · push_cast
      rw [abs_of_nonpos (by linarith)]
      exact ⟨by linarith, fun h => by linarith⟩
    · split
      · rename_i h
        rw [abs_of_nonneg (by linarith)]
        exact ⟨by linarith, fun _ => h⟩
      · push_cast
        rw [abs_of_nonpos (by linarith)]
        exact ⟨by linarith, fun _ => by omega⟩

theorem nearest_unique {x : ℚ} {m n : ℤ} (hm : |x - m| ≤ 1 / 2 ∧ (|x - m| = 1 / 2 → m % 2 = 0))
    (hn : |x - n| ≤ 1 / 2 ∧ (|x - n| = 1 / 2 → n % 2 = 0)) : m = n := by
  obtain ⟨a, b⟩ := hm
  obtain ⟨c, d⟩ := hn
  rw [abs_le] at a c
  have h1 : (m : ℚ) ≤ n + 1 := by linarith
  have h2 : (n : ℚ) ≤ m + 1 := by linarith
  have h1' : m ≤ n + 1 := by exact_mod_cast h1
  have h2' : n ≤ m + 1 := by exact_mod_cast h2
  by_contra hne
  rcases lt_or_gt_of_ne hne with h | h
  · have e : n = m + 1 := by omega
    subst e
    push_cast at c d
    have hx : x - m = 1 / 2 := by linarith
    have hx2 : x - (m + 1) = -(1 / 2) := by linarith
    have := b (by rw [hx, abs_of_pos (by norm_num)])
    have := d (by rw [hx2, abs_neg, abs_of_pos (by norm_num)])
    omega
  · have e : m = n + 1 := by omega
    subst e
    push_cast at a b
    have hx : x - n = 1 / 2 := by linarith
    have hx2 : x - (n + 1) = -(1 / 2) := by linarith
    have := d (by rw [hx, abs_of_pos (by norm_num)])
    have := b (by rw [hx2, abs_neg, abs_of_pos (by norm_num)])
    omega

/-- `roundSteps` meets its specification, and returns nothing else. -/
theorem roundSteps_iff (x : ℚ) (mode : String) (n : ℤ) : roundSteps x mode = .ok n ↔ Rounds mode x n := by
  unfold roundSteps Rounds
  by_cases h1 : mode = "error"
  · subst h1
    simp only [if_true, true_and, String.reduceEq, false_and, or_false]
    split
    · rename_i h
      rw [rat_floor_eq] at h
      constructor
      · intro h; cases h
      · intro e; exfalso; apply h; rw [← e]; simp
    · rename_i h
      push Not at h
      constructor
      · intro e; cases e; exact h
      · intro e; rw [rat_floor_eq, ← e]; simp
  by_cases h2 : mode = "ceil"
  · subst h2
    simp only [String.reduceEq, if_false, if_true, true_and, false_and, or_false, false_or, rat_ceil_eq,
      Except.ok.injEq]
    exact Int.ceil_eq_iff
  by_cases h3 : mode = "round"
  · subst h3
    simp only [String.reduceEq, if_false, if_true, true_and, false_and, false_or,
      Except.ok.injEq]
    constructor
    · intro h; rw [← h]; exact pyRound_spec x
    · intro h; exact nearest_unique (pyRound_spec x) h
  by_cases h4 : mode = "floor"
  · subst h4
    simp only [String.reduceEq, if_false, if_true, true_and, false_and, or_false, false_or,
      Except.ok.injEq, rat_floor_eq]
    exact Int.floor_eq_iff
  simp [h1, h2, h3, h4]

theorem getSimSteps_eq (prec : Int) (t : ℚ) (u mode : String) (e : Int) (he : unitExp prec u = some e) :
    getSimSteps prec t u mode = roundSteps (t * (10 : ℚ) ^ (e - prec)) mode := by
  unfold getSimSteps
  by_cases hu : u = "step"
  · rw [if_pos hu]
    have : e = prec := by simp [unitExp, hu] at he; omega
    subst this; simp
  · rw [if_neg hu, (logTimeScale_iff prec u hu e).2 he]
    simp only [ldexp10_eq]

/-- C22: the steps returned for `t` units are the rounding of (time in seconds) / (step in seconds);
in particular under `'error'` a number is returned exactly when it is exact. -/
theorem C22_steps (prec : Int) (t : ℚ) (u mode : String) (e : Int) (he : unitExp prec u = some e) (n : ℤ) :
    getSimSteps prec t u mode = .ok n ↔ Rounds mode (t * (10 : ℚ) ^ e / (10 : ℚ) ^ prec) n := by
  rw [getSimSteps_eq prec t u mode e he, roundSteps_iff, zpow_sub₀ (by norm_num), mul_div_assoc]

/-- C22: `'error'` raises `ValueError` exactly when the time is not a whole number of steps; the three
other modes never raise; other mode names raise `ValueError`. -/
theorem C22_errors (prec : Int) (t : ℚ) (u mode : String) (e : Int) (he : unitExp prec u = some e) :
    (getSimSteps prec t u "error" = .error .valueError ↔ ¬ ∃ n : ℤ, (n : ℚ) * 10 ^ prec = t * 10 ^ e) ∧
    (mode = "floor" ∨ mode = "ceil" ∨ mode = "round" → ∃ n, getSimSteps prec t u mode = .ok n) ∧
    (mode ∉ ["error", "floor", "ceil", "round"] → getSimSteps prec t u mode = .error .valueError) := by
  refine ⟨?_, ?_, ?_⟩
  · constructor
    · rintro h ⟨n, hn⟩
      have := (C22_steps prec t u "error" e he n).2 (Or.inl ⟨rfl, by
        rw [eq_div_iff (pow10_pos prec).ne']; exact hn⟩)
      rw [h] at this; cases this
    · intro h
      rw [getSimSteps_eq prec t u _ e he]
      unfold roundSteps
      simp only [if_true]
      split
      · rfl
      · rename_i hf
        push Not at hf
        refine absurd ⟨(t * (10 : ℚ) ^ (e - prec)).floor, ?_⟩ h
        rw [hf, zpow_sub₀ (by norm_num)]
        have := (pow10_pos prec).ne'
        field_simp
  · rintro (rfl | rfl | rfl) <;> rw [getSimSteps_eq prec t u _ e he] <;> simp [roundSteps]
  · intro h
    rw [getSimSteps_eq prec t u _ e he]
    simp only [List.mem_cons, List.not_mem_nil, or_false, not_or] at h
    simp [roundSteps, h]

/-- C22: an unknown unit raises `ValueError`. -/
theorem C22_bad_unit (prec : Int) (t : ℚ) (u mode : String) (he : unitExp prec u = none) :
    getSimSteps prec t u mode = .error .valueError := by
  have hu : u ≠ "step" := by rintro rfl; simp [unitExp] at he
  unfold getSimSteps
  rw [if_neg hu, logTimeScale_err prec u hu he]

theorem timeFromSimSteps_eq (prec : Int) (n : ℚ) (u : String) (e : Int) (he : unitExp prec u = some e) :
    timeFromSimSteps prec n u = .ok (n * 10 ^ (prec - e)) := by
  unfold timeFromSimSteps
  by_cases hu : u = "step"
  · rw [if_pos hu]
    have : e = prec := by simp [unitExp, hu] at he; omega
    subst this; simp
  · rw [if_neg hu, (logTimeScale_iff prec u hu e).2 he]
    simp only [ldexp10_eq]

/-- C22: steps → time → steps is the identity in every mode. -/
theorem C22_roundtrip (prec : Int) (n : ℤ) (u mode : String) (e : Int) (he : unitExp prec u = some e)
    (hm : mode ∈ ["error", "floor", "ceil", "round"]) :
    ∃ t, timeFromSimSteps prec n u = .ok t ∧ t * 10 ^ e = n * 10 ^ prec ∧
      getSimSteps prec t u mode = .ok n := by
  refine ⟨_, timeFromSimSteps_eq prec n u e he, ?_, ?_⟩
  · rw [mul_assoc, ← zpow_add₀ (by norm_num)]; congr 2; ring
  · rw [C22_steps prec _ u mode e he]
    have : (n : ℚ) * 10 ^ (prec - e) * 10 ^ e / 10 ^ prec = n := by
      rw [mul_assoc, ← zpow_add₀ (by norm_num)]
      simp only [sub_add_cancel]
      exact mul_div_cancel_right₀ _ (pow10_pos prec).ne'
    rw [this]
    unfold Rounds
    simp only [List.mem_cons, List.not_mem_nil, or_false] at hm
    rcases hm with rfl | rfl | rfl | rfl <;> norm_num

example : getSimSteps (-12) (5 / 2) "ns" "error" = .ok 2500 := by
  rw [C22_steps (-12) _ "ns" "error" (-9) (by decide +kernel)]
  left; norm_num
example : getSimSteps (-9) (5 / 2) "ns" "round" = .ok 2 ∧ getSimSteps (-9) (7 / 2) "NS" "round" = .ok 4 ∧
    getSimSteps (-9) (5 / 2) "ns" "error" = .error .valueError := by decide +kernel

/-- Decomposition of a conversion. -/
theorem convert_eq (prec : Int) (t : ℚ) (u v mode : String) (e f : Int) (hu : u ≠ "step")
    (he : unitExp prec u = some e) (hf : unitExp prec v = some f) :
    convert prec t u v mode = match getSimSteps prec t u mode with
      | .ok n => .ok ((n : ℚ) * 10 ^ (prec - f))
      | .error x => .error x := by
  unfold convert
  simp only [hu, if_false]
  cases h : getSimSteps prec t u mode with
  | error x => rfl
  | ok n =>
    simp only
    by_cases hv : v = "step"
    · have : f = prec := by simp [unitExp, hv] at hf; omega
      subst this; simp [hv]
    · simp only [hv, if_false]
      exact timeFromSimSteps_eq prec n v f hf

/-- C23: under `'error'` a conversion, if it returns, returns exactly the same duration. Missing: the rounding of `float` results,
see `C139_convert` and `C139_exact_counterexample`. -/
theorem C23_exact_partial (prec : Int) (t r : ℚ) (u v : String) (e f : Int) (he : unitExp prec u = some e)
    (hf : unitExp prec v = some f) (h : convert prec t u v "error" = .ok r) : r * 10 ^ f = t * 10 ^ e := by
  by_cases hu : u = "step"
  · subst hu
    have he' : e = prec := by simp [unitExp] at he; omega
    subst he'
    unfold convert at h
    simp only [if_true] at h
    by_cases hv : v = "step"
    · have : f = e := by simp [unitExp, hv] at hf; omega
      simp only [hv, if_true] at h; cases h; rw [this]
    · simp only [hv, if_false] at h
      rw [timeFromSimSteps_eq e t v f hf] at h
      cases h
      rw [mul_assoc, ← zpow_add₀ (by norm_num)]; congr 2; ring
  · rw [convert_eq prec t u v "error" e f hu he hf] at h
    cases hs : getSimSteps prec t u "error" with
    | error x => rw [hs] at h; cases h
    | ok n =>
      rw [hs] at h; cases h
      rw [C22_steps prec t u "error" e he] at hs
      simp [Rounds] at hs
      rw [hs, zpow_sub₀ (by norm_num)]
      have := (pow10_pos prec).ne'
      have := (pow10_pos f).ne'
      field_simp

/-- C23: every conversion of a whole number of steps returns, in every rounding mode. -/
theorem C23_total (prec : Int) (n : ℤ) (u v mode : String) (e f : Int) (he : unitExp prec u = some e)
    (hf : unitExp prec v = some f) (hm : mode ∈ ["error", "floor", "ceil", "round"]) (t : ℚ)
    (ht : t * 10 ^ e = n * 10 ^ prec) : ∃ r, convert prec t u v mode = .ok r ∧ r * 10 ^ f = n * 10 ^ prec := by
  have hr : (n : ℚ) * 10 ^ (prec - f) * 10 ^ f = n * 10 ^ prec := by
    rw [mul_assoc, ← zpow_add₀ (by norm_num)]; congr 2; ring
  refine ⟨(n : ℚ) * 10 ^ (prec - f), ?_, hr⟩
  by_cases hu : u = "step"
  · subst hu
    have he' : e = prec := by simp [unitExp] at he; omega
    subst he'
    have htn : t = n := mul_right_cancel₀ (pow10_pos e).ne' ht
    subst htn
    unfold convert
    simp only [if_true]
    by_cases hv : v = "step"
    · have : f = e := by simp [unitExp, hv] at hf; omega
      subst this; simp [hv]
    · simp only [hv, if_false]; exact timeFromSimSteps_eq e n v f hf
  · rw [convert_eq prec t u v mode e f hu he hf]
    have : getSimSteps prec t u mode = .ok n := by
      rw [C22_steps prec t u mode e he, ht, mul_div_cancel_right₀ _ (pow10_pos prec).ne']
      unfold Rounds
      simp only [List.mem_cons, List.not_mem_nil, or_false] at hm
      rcases hm with rfl | rfl | rfl | rfl <;> norm_num
    rw [this]

/-- C23: `u → v → w` agrees with `u → w` whenever nothing is rounded. -/
theorem C23_compose (prec : Int) (t r s : ℚ) (u v w : String) (e f g : Int) (he : unitExp prec u = some e)
    (hf : unitExp prec v = some f) (hg : unitExp prec w = some g)
    (h1 : convert prec t u v "error" = .ok r) (h2 : convert prec r v w "error" = .ok s) (hu : u ≠ "step") :
    convert prec t u w "error" = .ok s := by
  have a := C23_exact_partial prec t r u v e f he hf h1
  have b := C23_exact_partial prec r s v w f g hf hg h2
  rw [convert_eq prec t u v "error" e f hu he hf] at h1
  rw [convert_eq prec t u w "error" e g hu he hg]
  cases hs : getSimSteps prec t u "error" with
  | error x => rw [hs] at h1; cases h1
  | ok n =>
    simp only
    rw [C22_steps prec t u "error" e he] at hs
    simp [Rounds] at hs
    congr 1
    apply mul_right_cancel₀ (pow10_pos g).ne'
    rw [b, a, hs, zpow_sub₀ (by norm_num)]
    have := (pow10_pos prec).ne'
    have := (pow10_pos g).ne'
    field_simp

theorem Rounds.mono {mode : String} {x y : ℚ} {m n : ℤ} (hx : Rounds mode x m) (hy : Rounds mode y n)
    (hxy : x ≤ y) : m ≤ n := by
  rcases hx with ⟨rfl, h⟩ | ⟨rfl, h1, h2⟩ | ⟨rfl, h1, h2⟩ | ⟨rfl, h1⟩
  · simp [Rounds] at hy
    rw [← h, ← hy] at hxy
    exact_mod_cast hxy
  · simp [Rounds] at hy
    have : (m : ℚ) < n + 1 := by linarith [hy.2]
    have : m < n + 1 := by exact_mod_cast this
    omega
  · simp [Rounds] at hy
    have : (m : ℚ) < n + 1 := by linarith [hy.2]
    have : m < n + 1 := by exact_mod_cast this
    omega
  · have hy' : |y - n| ≤ 1 / 2 ∧ (|y - n| = 1 / 2 → n % 2 = 0) := by
      simpa [Rounds] using hy
    by_contra hlt
    push Not at hlt
    have a := abs_le.1 h1.1
    have c := abs_le.1 hy'.1
    have h3 : (m : ℚ) ≤ n + 1 := by linarith
    have h3' : m ≤ n + 1 := by exact_mod_cast h3
    have hm : m = n + 1 := by omega
    subst hm
    push_cast at a
    have : x = y := by linarith
    subst this
    have := nearest_unique h1 hy'
    omega

/-- C23: every rounding mode is monotone. -/
theorem C23_monotone (prec : Int) (s t : ℚ) (u v mode : String) (e f : Int) (he : unitExp prec u = some e)
    (hf : unitExp prec v = some f) (hst : s ≤ t) (a b : ℚ) (ha : convert prec s u v mode = .ok a)
    (hb : convert prec t u v mode = .ok b) : a ≤ b := by
  by_cases hu : u = "step"
  · subst hu
    unfold convert at ha hb
    simp only [if_true] at ha hb
    by_cases hv : v = "step"
    · simp only [hv, if_true] at ha hb; cases ha; cases hb; exact hst
    · simp only [hv, if_false] at ha hb
      rw [timeFromSimSteps_eq prec _ v f hf] at ha hb
      cases ha; cases hb
      exact mul_le_mul_of_nonneg_right hst (pow10_pos _).le
  · rw [convert_eq prec _ u v mode e f hu he hf] at ha hb
    cases h1 : getSimSteps prec s u mode with
    | error x => rw [h1] at ha; cases ha
    | ok m =>
      cases h2 : getSimSteps prec t u mode with
      | error x => rw [h2] at hb; cases hb
      | ok n =>
        rw [h1] at ha; rw [h2] at hb
        cases ha; cases hb
        rw [C22_steps prec _ u mode e he] at h1 h2
        have hle : s * 10 ^ e / 10 ^ prec ≤ t * 10 ^ e / 10 ^ prec := by
          apply div_le_div_of_nonneg_right _ (pow10_pos prec).le
          exact mul_le_mul_of_nonneg_right hst (pow10_pos e).le
        have := Rounds.mono h1 h2 hle
        have h' : (m : ℚ) ≤ n := by exact_mod_cast this
        exact mul_le_mul_of_nonneg_right h' (pow10_pos _).le

/-- C23: unknown units raise `ValueError`. -/
theorem C23_bad_unit (prec : Int) (t : ℚ) (u v mode : String) :
    (unitExp prec u = none → convert prec t u v mode = .error .valueError) ∧
    (∀ e, unitExp prec u = some e → unitExp prec v = none → ∀ r, convert prec t u v mode ≠ .ok r) := by
  constructor
  · intro h
    have hu : u ≠ "step" := by rintro rfl; simp [unitExp] at h
    unfold convert
    simp only [hu, if_false, C22_bad_unit prec t u mode h]
  · intro e he hv r
    have hv' : v ≠ "step" := by rintro rfl; simp [unitExp] at hv
    unfold convert
    simp only [hv', if_false, timeFromSimSteps, logTimeScale_err prec v hv' hv]
    split <;> simp

/-- C23: unit names other than `step` are case-insensitive. -/
theorem C23_case (prec : Int) (t : ℚ) (u u' v mode : String) (h : u.toLower = u'.toLower) (hu : u ≠ "step")
    (hu' : u' ≠ "step") : convert prec t u v mode = convert prec t u' v mode := by
  unfold convert getSimSteps logTimeScale
  simp only [hu, hu', if_false, h]

example : convert (-12) (3 / 2) "us" "ns" "error" = .ok 1500 ∧
    convert (-9) (3 / 2) "ns" "us" "ceil" = .ok (1 / 500) := by decide +kernel

/-- C73, full claim: a conversion to steps is a whole number of steps or an error. -/
def C73_full : Prop :=
  ∀ (prec : Int) (t r : ℚ) (u mode : String), convert prec t u "step" mode = .ok r → ∃ n : ℤ, r = n

/-- C73: false of the code: a fractional number of steps passes through unrounded, whatever the
mode. -/
theorem C73_counterexample : ¬ C73_full := by
  intro h
  obtain ⟨n, hn⟩ := h (-9) (3 / 2) (3 / 2) "step" "error" (by decide +kernel)
  have h2 : ((2 * n : ℤ) : ℚ) = ((3 : ℤ) : ℚ) := by push_cast; linarith
  have : 2 * n = 3 := by exact_mod_cast h2
  omega

/-- C73: for every other unit. -/
theorem C73_integral_partial (prec : Int) (t r : ℚ) (u mode : String) (hu : u ≠ "step")
    (h : convert prec t u "step" mode = .ok r) : ∃ n : ℤ, r = n ∧ getSimSteps prec t u mode = .ok n := by
  unfold convert at h
  simp only [hu, if_false, if_true] at h
  cases hs : getSimSteps prec t u mode with
  | error x => rw [hs] at h; cases h
  | ok n => rw [hs] at h; cases h; exact ⟨n, rfl, rfl⟩

/-- C24: non-positive times are rejected. -/
theorem C24_reject (prec : Int) (t : ℚ) (u mode : String) (h : t ≤ 0) :
    timerSteps prec t u mode = .error .valueError := by
  simp [timerSteps, h]

/-- C24: otherwise the timer waits the rounded number of steps, and at least one. -/
theorem C24_steps (prec : Int) (t : ℚ) (u mode : String) (ht : 0 < t) :
    (∀ x, getSimSteps prec t u mode = .error x → timerSteps prec t u mode = .error x) ∧
    (∀ n, getSimSteps prec t u mode = .ok n → timerSteps prec t u mode = .ok (max n 1)) := by
  have ht' : ¬ t ≤ 0 := not_le.2 ht
  constructor
  · intro x hx; simp [timerSteps, ht', hx]
  · intro n hn
    simp only [timerSteps, ht', if_false, hn]
    have hn0 : 0 ≤ n := by
      cases he : unitExp prec u with
      | none => rw [C22_bad_unit prec t u mode he] at hn; cases hn
      | some e =>
        rw [C22_steps prec t u mode e he] at hn
        have hx : 0 < t * 10 ^ e / 10 ^ prec :=
          div_pos (mul_pos ht (pow10_pos e)) (pow10_pos prec)
        generalize t * 10 ^ e / 10 ^ prec = x at hn hx
        have : (-1 : ℚ) < n := by
          rcases hn with ⟨-, h⟩ | ⟨-, h1, h2⟩ | ⟨-, h1, h2⟩ | ⟨-, h1, -⟩
          · linarith
          · linarith
          · linarith
          · have := (abs_le.1 h1).2; linarith
        have : (-1 : ℤ) < n := by exact_mod_cast this
        omega
    congr 1
    split <;> omega

/-- C24: in particular at least one step. -/
theorem C24_positive (prec : Int) (t : ℚ) (u mode : String) (n : ℤ) (h : timerSteps prec t u mode = .ok n) :
    1 ≤ n := by
  by_cases ht : t ≤ 0
  · rw [C24_reject prec t u mode ht] at h; cases h
  · have hs := C24_steps prec t u mode (not_le.1 ht)
    cases hg : getSimSteps prec t u mode with
    | error x => rw [hs.1 x hg] at h; cases h
    | ok m => rw [hs.2 m hg] at h; cases h; omega

example : timerSteps (-12) (1 / 10) "ps" "round" = .ok 1 := by decide +kernel

/-- C69: the two words are one 64-bit number of steps. -/
theorem C69_steps (prec : Int) (hi lo : BitVec 32) :
    getSimTime prec hi lo "step" = .ok ((hi.toNat * 2 ^ 32 + lo.toNat : ℕ) : ℚ) := by
  have h : (hi.toNat <<< 32) ||| lo.toNat = hi.toNat * 2 ^ 32 + lo.toNat := by
    rw [Nat.shiftLeft_eq, mul_comm, ← Nat.two_pow_add_eq_or_of_lt lo.isLt]
  simp only [getSimTime, h]
  simp

/-- C69: in any other unit the same instant, exactly; an unknown unit raises `ValueError`. Missing: the rounding of `float` results,
see `C139_nearest` and `C139_exact_counterexample`. -/
theorem C69_units_partial (prec : Int) (hi lo : BitVec 32) (u : String) :
    (∀ e, unitExp prec u = some e →
      ∃ t, getSimTime prec hi lo u = .ok t ∧ t * 10 ^ e = (hi.toNat * 2 ^ 32 + lo.toNat : ℕ) * 10 ^ prec) ∧
    (unitExp prec u = none → getSimTime prec hi lo u = .error .valueError) := by
  have h : (hi.toNat <<< 32) ||| lo.toNat = hi.toNat * 2 ^ 32 + lo.toNat := by
    rw [Nat.shiftLeft_eq, mul_comm, ← Nat.two_pow_add_eq_or_of_lt lo.isLt]
  constructor
  · intro e he
    by_cases hu : u = "step"
    · subst hu
      have he' : e = prec := by simp [unitExp] at he; omega
      subst he'
      exact ⟨_, C69_steps e hi lo, rfl⟩
    · simp only [getSimTime, h, ne_eq, hu, not_false_iff, if_true]
      refine ⟨_, timeFromSimSteps_eq prec _ u e he, ?_⟩
      rw [mul_assoc, ← zpow_add₀ (by norm_num)]; congr 2; ring
  · intro he
    have hu : u ≠ "step" := by rintro rfl; simp [unitExp] at he
    simp only [getSimTime, ne_eq, hu, not_false_iff, if_true, timeFromSimSteps, if_false,
      logTimeScale_err prec u hu he]

example : getSimTime (-12) 1 500 "ns" = .ok (1073741949 / 250) := by
  decide +kernel

end Verif
