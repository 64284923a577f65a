import Verif.Spec.GpiTime
import Verif.Props.NumTime
import Mathlib.Tactic.Linarith
/-!
# C141: delays, times and the precision between Python and the simulator
-/
namespace Verif
open Spec SimTime NumTime GpiTime GpiTimeSpec

theorem GpiTime.halves (t : BitVec 64) : (timedHL t).high.toNat * 2 ^ 32 + (timedHL t).low.toNat = t.toNat := by
  simp only [timedHL, BitVec.toNat_setWidth, BitVec.toNat_ushiftRight, Nat.shiftRight_eq_div_pow]
  have := t.isLt
  omega

/-- **C141** full: the simulator is asked for exactly the delay of every Timer that could be constructed. -/
def C141_delay_full : Prop := ∀ (i : Iface) (n : Int), 0 < n → ∃ t, registerTimed n = .ok t ∧ delaySteps (delay i t) = n

/-- A Timer of 2^63 steps can be constructed, but awaiting it raises `OverflowError`. -/
theorem C141_delay_counterexample : ¬ C141_delay_full := by
  intro h
  obtain ⟨t, h1, -⟩ := h .vpi (2 ^ 63) (by decide)
  have : registerTimed (2 ^ 63) = .error .overflowError := by decide +kernel
  rw [this] at h1
  cases h1

/-- Shorter delays arrive unchanged in all interfaces; longer ones raise `OverflowError`, so that none arrives wrong. -/
theorem C141_delay_partial (i : Iface) (n : Int) (hn : 0 < n) :
    (n < 2 ^ 63 → ∃ t, registerTimed n = .ok t ∧ delaySteps (delay i t) = n) ∧
    (2 ^ 63 ≤ n → registerTimed n = .error .overflowError) := by
  constructor
  · intro h
    refine ⟨BitVec.ofInt 64 n, ?_, ?_⟩
    · simp only [registerTimed, asLongLong]
      rw [if_pos ⟨by omega, h⟩]
      simp only
      rw [if_neg (by omega)]
    · have hnat : ((BitVec.ofInt 64 n).toNat : Int) = n := by
        rw [BitVec.toNat_ofInt]
        omega
      cases i with
      | fli =>
        show (BitVec.ofInt 64 n).toInt = n
        rw [BitVec.toInt_ofInt]
        exact Int.bmod_eq_of_le (by omega) (by omega)
      | vpi =>
        have := halves (BitVec.ofInt 64 n)
        show (((timedHL (BitVec.ofInt 64 n)).high.toNat : Int) * 2 ^ 32 + (timedHL (BitVec.ofInt 64 n)).low.toNat) = n
        omega
      | vhpi =>
        have := halves (BitVec.ofInt 64 n)
        show (((timedHL (BitVec.ofInt 64 n)).high.toNat : Int) * 2 ^ 32 + (timedHL (BitVec.ofInt 64 n)).low.toNat) = n
        omega
  · intro h
    simp only [registerTimed, asLongLong]
    rw [if_neg (by omega)]

example : registerTimed 5000000000 = .ok 5000000000#64 ∧ delay .vpi 5000000000#64 = .hl ⟨1, 705032704⟩ := by decide +kernel

theorem GpiTime.or_halves (h l : BitVec 32) : (h.toNat <<< 32) ||| l.toNat = h.toNat * 2 ^ 32 + l.toNat := by
  rw [← Nat.shiftLeft_add_eq_or_of_lt l.isLt, Nat.shiftLeft_eq]

theorem GpiTime.ofInt_nat (u : Int) (m : Nat) (hm : m < 2 ^ 32) (h : (u - (m : Int)) % 2 ^ 32 = 0) : (BitVec.ofInt 32 u).toNat = m := by
  rw [BitVec.toNat_ofInt]
  omega

/-- **C141** `get_sim_time('step')` is the simulation time, in all interfaces and over the whole range of 64 bits. -/
theorem C141_now (i : Iface) (now : Nat) (x : Now) (h : Tells i now x) (prec : Int) :
    getSimTimeN prec (getTime x).1 (getTime x).2 "step" = .ok (.int now) := by
  unfold getSimTimeN
  simp only [ne_eq, not_true_eq_false, if_false, or_halves]
  cases h with
  | vpi t => rfl
  | vhpi t => rfl
  | fli _ u l h0 h1 h2 h3 h4 h5 h6 =>
    simp only [getTime]
    rw [ofInt_nat u (now / 2 ^ 32) (by omega) h5, ofInt_nat l (now % 2 ^ 32) (by omega) h6]
    congr 3
    push_cast
    omega

/-- More than 32 bits, with a lower half that the FLI returns as a negative number. -/
example : Tells .fli (2 ^ 32 + (2 ^ 32 - 2)) (.nums 1 (-2)) := .fli _ _ _ (by decide) (by decide) (by decide) (by decide) (by decide) (by decide) (by decide)
example : Tells .vpi (2 ^ 32 * 7 + 9) (.hl ⟨7, 9⟩) := .vpi ⟨7, 9⟩

theorem GpiTime.log10int_pow (k : Nat) : log10int (10 ^ k) = k := by
  induction k with
  | zero => rw [log10int]; rfl
  | succ k ih =>
    have h1 : 10 ^ (k + 1) / 10 = 10 ^ k := by rw [Nat.pow_succ]; exact Nat.mul_div_cancel _ (by decide)
    have h2 : 0 < 10 ^ k := Nat.pow_pos (by decide)
    rw [log10int, h1, if_neg (by omega), ih]
    push_cast
    omega

/-- **C141** The precision is the simulator's, for all precisions a simulator can have. -/
theorem C141_precision (i : Iface) (e : Int) (p : Prec) (h : TellsPrec i e p) (he : -15 ≤ e ∧ e ≤ 2) : getPrecision p = e := by
  have key : simPrecision p = e := by
    cases h with
    | vpi => rfl
    | fli => rfl
    | vhpi _ h l h1 h2 h3 =>
      have hv : ((h.signExtend 64 <<< 32) ||| l.setWidth 64).toNat = 10 ^ (e + 15).toNat := by
        have hs : h.signExtend 64 = h.setWidth 64 := by
          apply BitVec.signExtend_eq_setWidth_of_msb_false
          rw [BitVec.msb_eq_decide]
          simp only [decide_eq_false_iff_not]
          omega
        have hl := l.isLt
        have hh := h.isLt
        rw [hs, BitVec.toNat_or, BitVec.toNat_shiftLeft, BitVec.toNat_setWidth, BitVec.toNat_setWidth, Nat.mod_eq_of_lt (by omega),
          Nat.mod_eq_of_lt (a := l.toNat) (by omega), Nat.shiftLeft_eq, Nat.mod_eq_of_lt (by omega), ← Nat.shiftLeft_eq, or_halves, h3]
      simp only [simPrecision]
      rw [hv, log10int_pow]
      omega
  unfold getPrecision
  rw [key]
  simp only
  rw [if_neg (by omega), if_neg (by omega)]

/-- 1 ps is 1000 fs; 10 s does not fit into 32 bits. -/
example : TellsPrec .vhpi (-12) (.phys 0 1000) := .vhpi _ _ _ (by decide) (by decide) (by decide)
example : TellsPrec .vhpi 1 (.phys 2328306 1874919424) := .vhpi _ _ _ (by decide) (by decide) (by decide)

/-- **C141** From end to end: while `await Timer(t, unit)` waits, as much time passes as was asked for. The simulator is at `now` steps of
`10^r` seconds when the Timer is awaited, and comes back after the delay it was given. -/
theorem C141_elapsed (i : Iface) (r : Int) (p : Prec) (hp : TellsPrec i r p) (hr : -15 ≤ r ∧ r ≤ 2) (t : ℚ) (u : String) (e : Int)
    (he : unitExp r u = some e) (n : Int) (hn : timerStepsN (getPrecision p) (.frac t) u "error" = .ok n)
    (d : BitVec 64) (hd : registerTimed n = .ok d)
    (now later : Nat) (x y : Now) (hx : Tells i now x) (hy : Tells i later y) (hl : (later : Int) = now + delaySteps (delay i d)) :
    ∃ a b : Int, getSimTimeN (getPrecision p) (getTime x).1 (getTime x).2 "step" = .ok (.int a) ∧
      getSimTimeN (getPrecision p) (getTime y).1 (getTime y).2 "step" = .ok (.int b) ∧
      ((b : ℚ) - a) * 10 ^ r = t * 10 ^ e := by
  rw [C141_precision i r p hp hr] at hn ⊢
  refine ⟨now, later, C141_now i now x hx r, C141_now i later y hy r, ?_⟩
  obtain ⟨h1, m, h2, h3, h4⟩ := (C138_timer r (.frac t) u "error").2 n hn
  have hpos : 0 < t := by
    by_contra hneg
    have := (C138_timer r (.frac t) u "error").1 (not_lt.1 hneg)
    rw [this] at hn; cases hn
  rw [C138_fraction] at h2
  have hm : (m : ℚ) * 10 ^ r = t * 10 ^ e := by
    have := (C22_steps r t u "error" e he m).1 h2
    rcases this with ⟨-, h⟩ | ⟨h, -⟩ | ⟨h, -⟩ | ⟨h, -⟩
    · rw [h, div_mul_cancel₀ _ (by positivity)]
    all_goals exact absurd h (by decide)
  have hnm : n = m := by
    rcases h4 with h4 | ⟨h4, -⟩
    · exact h4
    · exfalso
      rw [h4] at hm
      have : (0 : ℚ) < t * 10 ^ e := by positivity
      rw [← hm] at this
      simp at this
  have hlt : n < 2 ^ 63 := by
    by_contra h
    have := (C141_delay_partial i n h1).2 (by omega)
    rw [this] at hd; cases hd
  obtain ⟨d', h5, h6⟩ := (C141_delay_partial i n h1).1 hlt
  rw [h5] at hd
  cases hd
  rw [h6] at hl
  have : ((later : Int) : ℚ) - ((now : Int) : ℚ) = m := by
    rw [hl, hnm]; push_cast; ring
  rw [this, hm]

/-- 5 us with a precision of 1 ps. -/
example : timerStepsN (getPrecision (.phys 0 1000)) (.frac 5) "us" "error" = .ok 5000000 ∧ registerTimed 5000000 = .ok 5000000#64 := by
  decide +kernel

end Verif
