import Verif.Spec.Clock
import Verif.Props.SimTime
import Mathlib.Data.List.Nodup
/-!
# Clocks: C25, C26
-/
namespace Verif
open Spec SimTime Clock

/-! ## Constructor -/

/-- C25, full claim about accepted parameters. -/
def C25_accept_full : Prop :=
  ∀ (prec : Int) (period : ℚ) (unit : String) (impl : Option String) (ti ao : Bool) (ph : Option ℚ) (c : Cfg),
    Clock.new prec period unit impl ti ao ph = .ok c → 1 ≤ c.highSteps ∧ c.highSteps < c.periodSteps

/-- C25: false of the code, `period_high=0` is accepted by the constructor (starting the clock then
fails, see `C25_start`). -/
theorem C25_accept_counterexample : ¬ C25_accept_full := by
  intro h
  have := h (-9) 10 "ns" none true true (some 0) ⟨10, 0, .gpi⟩ (by decide +kernel)
  revert this; decide

/-- C25: accepted parameters describe the requested durations exactly; both phases are at least one
step if the requested ones are positive. -/
theorem C25_accept_partial (prec : Int) (period : ℚ) (unit : String) (impl : Option String) (ti ao : Bool)
    (ph : Option ℚ) (c : Cfg) (e : Int) (he : unitExp prec unit = some e)
    (h : Clock.new prec period unit impl ti ao ph = .ok c) :
    (c.periodSteps : ℚ) * 10 ^ prec = period * 10 ^ e ∧
    (∀ x, ph = some x → (c.highSteps : ℚ) * 10 ^ prec = x * 10 ^ e ∧ x < period) ∧
    (ph = none → c.periodSteps = 2 * c.highSteps) ∧
    (impl = some "gpi" → c.impl = .gpi) ∧ (impl = some "py" → c.impl = .py) ∧
    (0 < period → (∀ x, ph = some x → 0 < x) → 1 ≤ c.highSteps ∧ c.highSteps < c.periodSteps) := by
  have hP := (pow10_pos prec)
  have hE := (pow10_pos e)
  have conv : ∀ (t : ℚ) (n : ℤ), getSimSteps prec t unit "error" = .ok n → (n : ℚ) * 10 ^ prec = t * 10 ^ e := by
    intro t n hn
    rw [C22_steps prec t unit "error" e he] at hn
    simp [Rounds] at hn
    rw [hn]; field_simp
  have pos : ∀ (t : ℚ) (n : ℤ), (n : ℚ) * 10 ^ prec = t * 10 ^ e → 0 < t → 0 < n := by
    intro t n hn ht
    have h1 : 0 < (n : ℚ) * 10 ^ prec := by rw [hn]; exact mul_pos ht hE
    have h2 : 0 < (n : ℚ) := pos_of_mul_pos_left h1 hP.le
    exact_mod_cast h2
  unfold Clock.new at h
  cases hp : getSimSteps prec period unit "error" with
  | error x => rw [hp] at h; cases h
  | ok p =>
    rw [hp] at h
    simp only at h
    have hp' := conv period p hp
    cases ao with
    | false => simp at h
    | true =>
      simp only [not_true, if_false] at h
      split at h
      · cases h
      · rename_i im him
        have himpl : (impl = some "gpi" → im = .gpi) ∧ (impl = some "py" → im = .py) := by
          constructor <;> intro hi <;> subst hi <;> simp [pickImpl] at him <;> exact him.symm
        cases ph with
        | none =>
          simp only at h
          by_cases hodd : p % 2 = 0
          · simp only [hodd, ne_eq, not_true, if_false] at h
            cases h
            refine ⟨hp', by simp, fun _ => by simp only; omega, himpl.1, himpl.2, ?_⟩
            intro hper _
            have := pos period p hp' hper
            simp only; omega
          · simp only [hodd, ne_eq, not_false_iff, if_true] at h; cases h
        | some x =>
          simp only at h
          by_cases hx : x ≥ period
          · simp only [hx, if_true] at h; cases h
          · simp only [hx, if_false] at h
            cases hh : getSimSteps prec x unit "error" with
            | error y => rw [hh] at h; cases h
            | ok hs =>
              rw [hh] at h; cases h
              have hh' := conv x hs hh
              push Not at hx
              refine ⟨hp', ?_, by simp, himpl.1, himpl.2, ?_⟩
              · intro y hy; cases hy; exact ⟨hh', hx⟩
              · intro hper hy
                have h1 := pos x hs hh' (hy x rfl)
                refine ⟨by simp only; omega, ?_⟩
                have h2 : (hs : ℚ) * 10 ^ prec < (p : ℚ) * 10 ^ prec := by
                  rw [hh', hp']; exact mul_lt_mul_of_pos_right hx hE
                have h3 : (hs : ℚ) < p := lt_of_mul_lt_mul_right h2 hP.le
                simp only; exact_mod_cast h3

/-- C25: invalid combinations are rejected with `ValueError`. -/
theorem C25_reject (prec : Int) (period : ℚ) (unit : String) (impl : Option String) (ti : Bool) (ph : Option ℚ)
    (e : Int) (he : unitExp prec unit = some e) :
    ((¬ ∃ n : ℤ, (n : ℚ) * 10 ^ prec = period * 10 ^ e) → Clock.new prec period unit impl ti true ph = .error .valueError) ∧
    (∀ x, ph = some x → x ≥ period → Clock.new prec period unit impl ti true ph = .error .valueError) ∧
    (∀ x, ph = some x → (¬ ∃ n : ℤ, (n : ℚ) * 10 ^ prec = x * 10 ^ e) →
      Clock.new prec period unit impl ti true ph = .error .valueError) ∧
    (∀ n : ℤ, ph = none → (n : ℚ) * 10 ^ prec = period * 10 ^ e → n % 2 ≠ 0 →
      Clock.new prec period unit impl ti true ph = .error .valueError) ∧
    (∀ s, impl = some s → s ≠ "gpi" → s ≠ "py" → Clock.new prec period unit impl ti true ph = .error .valueError) := by
  have noerr : ∀ t x, getSimSteps prec t unit "error" = .error x → x = .valueError := by
    intro t x hx
    rw [getSimSteps_eq prec t unit _ e he] at hx
    simp only [roundSteps, if_true] at hx
    split at hx
    · cases hx; rfl
    · cases hx
  have him : ∀ x, pickImpl ti impl = .error x → x = .valueError := by
    intro x hx
    unfold pickImpl at hx
    split at hx
    · cases hx
    · split at hx
      · cases hx
      · split at hx <;> cases hx; rfl
  -- every failing branch is a `ValueError`
  have all : ∀ x, Clock.new prec period unit impl ti true ph = .error x → x = .valueError := by
    intro x hx
    unfold Clock.new at hx
    split at hx
    · rename_i y hy; cases hx; exact noerr _ _ hy
    · simp only [not_true, if_false] at hx
      split at hx
      · rename_i y hy; cases hx; exact him _ hy
      · split at hx
        · split at hx
          · cases hx; rfl
          · split at hx
            · rename_i y hy; cases hx; exact noerr _ _ hy
            · cases hx
        · split at hx
          · cases hx; rfl
          · cases hx
  have err : (∀ c, Clock.new prec period unit impl ti true ph ≠ .ok c) →
      Clock.new prec period unit impl ti true ph = .error .valueError := by
    intro hc
    cases hn : Clock.new prec period unit impl ti true ph with
    | ok c => exact absurd hn (hc c)
    | error x => rw [all x hn]
  refine ⟨?_, ?_, ?_, ?_, ?_⟩
  · intro h; apply err; intro c hc
    exact h ⟨_, (C25_accept_partial prec period unit impl ti true ph c e he hc).1⟩
  · intro x hx hge; apply err; intro c hc
    have := ((C25_accept_partial prec period unit impl ti true ph c e he hc).2.1 x hx).2
    linarith
  · intro x hx h; apply err; intro c hc
    exact h ⟨_, ((C25_accept_partial prec period unit impl ti true ph c e he hc).2.1 x hx).1⟩
  · intro n hn hper hodd; apply err; intro c hc
    have h1 := C25_accept_partial prec period unit impl ti true ph c e he hc
    have h2 := h1.2.2.1 hn
    have h3 : (n : ℚ) = c.periodSteps := mul_right_cancel₀ (pow10_pos prec).ne' (by rw [hper, h1.1])
    have h4 : n = c.periodSteps := by exact_mod_cast h3
    omega
  · intro s hs h1 h2
    unfold Clock.new
    split
    · rename_i y hy; rw [noerr _ _ hy]
    · subst hs; simp [pickImpl, h1, h2]

example : Clock.new (-12) 10 "ns" none false true none = .ok ⟨10000, 5000, .py⟩ ∧
    Clock.new (-12) 10 "ns" (some "gpi") false true (some 3) = .ok ⟨10000, 3000, .gpi⟩ := by decide +kernel

/-! ## Waveform -/

theorem gpiAt_closed (p h : Nat) (sh : Bool) (hp : h < p) (j : Nat) :
    gpiAt p h sh (2 * j) = (j * p, sh, if sh then h else p - h) ∧
    gpiAt p h sh (2 * j + 1) = (j * p + (if sh then h else p - h), !sh, if sh then p - h else h) := by
  have one : ∀ j, gpiAt p h sh (2 * j) = (j * p, sh, if sh then h else p - h) →
      gpiAt p h sh (2 * j + 1) = (j * p + (if sh then h else p - h), !sh, if sh then p - h else h) := by
    intro j hj
    simp only [gpiAt, hj, gpiToggle]
    cases sh <;> simp
  induction j with
  | zero => exact ⟨by cases sh <;> simp [gpiAt, gpiToggle], one 0 (by cases sh <;> simp [gpiAt, gpiToggle])⟩
  | succ j ih =>
    have h1 : gpiAt p h sh (2 * (j + 1)) = ((j + 1) * p, sh, if sh then h else p - h) := by
      have : 2 * (j + 1) = 2 * j + 1 + 1 := by ring
      rw [this, gpiAt, ih.2]
      simp only [gpiToggle]
      cases sh <;> simp <;> rw [Nat.add_one_mul] <;> omega
    exact ⟨h1, one _ h1⟩

theorem pyAt_closed (th tl : Nat) (sh : Bool) (j : Nat) :
    (pyAt sh th tl (2 * j)).1 = j * (th + tl) ∧
    (pyAt sh th tl (2 * j)).2 = (if j = 0 then .start else if sh then .high else .low) ∧
    pyAt sh th tl (2 * j + 1) = (j * (th + tl) + (if sh then th else tl), if sh then .low else .high) := by
  have one : ∀ j, ((pyAt sh th tl (2 * j)).1 = j * (th + tl) ∧
      (pyAt sh th tl (2 * j)).2 = (if j = 0 then .start else if sh then .high else .low)) →
      pyAt sh th tl (2 * j + 1) = (j * (th + tl) + (if sh then th else tl), if sh then .low else .high) := by
    intro j hj
    simp only [pyAt, hj]
    cases sh <;> by_cases h0 : j = 0 <;> simp [h0, pyStep]
  induction j with
  | zero => exact ⟨by simp [pyAt], by simp [pyAt], one 0 (by simp [pyAt])⟩
  | succ j ih =>
    have h1 : (pyAt sh th tl (2 * (j + 1))).1 = (j + 1) * (th + tl) ∧
      (pyAt sh th tl (2 * (j + 1))).2 = (if j + 1 = 0 then .start else if sh then .high else .low) := by
      have : 2 * (j + 1) = 2 * j + 1 + 1 := by ring
      rw [this, pyAt, ih.2.2]
      cases sh <;> simp [pyStep] <;> rw [Nat.add_one_mul] <;> omega
    exact ⟨h1.1, h1.2, one _ h1⟩

/-- Closed form shared by both implementations. -/
def closed (p h : Nat) (sh : Bool) (d : Nat → Drive) : Prop :=
  ∀ j, d (2 * j) = (j * p, sh) ∧ d (2 * j + 1) = (j * p + (if sh then h else p - h), !sh)

theorem gpi_closed (p h : Nat) (sh : Bool) (hp : h < p) : closed p h sh (gpiDrives p h sh) := by
  intro j
  obtain ⟨a, b⟩ := gpiAt_closed p h sh hp j
  simp [gpiDrives, a, b]

theorem py_closed (p h : Nat) (sh : Bool) (hp : h < p) : closed p h sh (pyDrives sh h (p - h)) := by
  intro j
  obtain ⟨a, b, c⟩ := pyAt_closed h (p - h) sh j
  have e : h + (p - h) = p := by omega
  rw [e] at a c
  simp only [pyDrives, a, b, c]
  constructor
  · cases sh <;> by_cases h0 : j = 0 <;> simp [h0, pyStep]
  · cases sh <;> simp [pyStep]

/-- Drives in closed form give the specified waveform. -/
theorem closed_wave (p h : Nat) (sh : Bool) (h1 : 1 ≤ h) (hp : h < p) (d : Nat → Drive) (hd : closed p h sh d) :
    ∀ t v, ValueAt d t v ↔ v = wave p h sh t := by
  have f_lt : (if sh then h else p - h) < p ∧ 0 < (if sh then h else p - h) := by cases sh <;> simp <;> omega
  have hw : ∀ t, wave p h sh t = (if t % p < (if sh then h else p - h) then sh else !sh) := by
    intro t
    unfold wave
    cases sh
    · simp only [Bool.false_eq_true, if_false, Bool.not_false]
      by_cases hh : t % p < p - h
      · simp [hh]; omega
      · simp [hh]; omega
    · simp only [if_true, Bool.not_true]
      by_cases hh : t % p < h <;> simp [hh]
  have modlem : ∀ j r, r < p → (j * p + r) % p = r := by
    intro j r hr; rw [Nat.mul_comm, Nat.mul_add_mod, Nat.mod_eq_of_lt hr]
  generalize hf : (if sh then h else p - h) = f at *
  have key : ∀ t v, ValueAt d t v → v = wave p h sh t := by
    rintro t v ⟨k, a, b, c⟩
    rw [hw]
    rcases Nat.even_or_odd' k with ⟨j, hj | hj⟩
    · subst hj
      rw [(hd j).2, hf] at b
      rw [(hd j).1] at a c
      simp only at a b c
      obtain ⟨r, hr⟩ : ∃ r, t = j * p + r := ⟨t - j * p, by omega⟩
      subst hr
      rw [modlem j r (by omega), if_pos (by omega), c]
    · subst hj
      have e : 2 * j + 1 + 1 = 2 * (j + 1) := by ring
      rw [e, (hd (j + 1)).1] at b
      rw [(hd j).2, hf] at a c
      simp only at a b c
      rw [Nat.add_one_mul] at b
      obtain ⟨r, hr⟩ : ∃ r, t = j * p + r := ⟨t - j * p, by omega⟩
      subst hr
      rw [modlem j r (by omega), if_neg (by omega), c]
  have ex : ∀ t, ∃ v, ValueAt d t v := by
    intro t
    have hdm := Nat.div_add_mod t p
    have hlt := Nat.mod_lt t (show 0 < p by omega)
    rw [Nat.mul_comm] at hdm
    generalize t / p = j at *
    generalize t % p = r at *
    by_cases hr : r < f
    · exact ⟨_, 2 * j, by rw [(hd j).1]; simp only; omega, by rw [(hd j).2, hf]; simp only; omega, rfl⟩
    · refine ⟨_, 2 * j + 1, by rw [(hd j).2, hf]; simp only; omega, ?_, rfl⟩
      have e : 2 * j + 1 + 1 = 2 * (j + 1) := by ring
      rw [e, (hd (j + 1)).1]
      simp only
      rw [Nat.add_one_mul]; omega
  intro t v
  constructor
  · exact key t v
  · intro hv
    obtain ⟨w, hw'⟩ := ex t
    have := key t w hw'
    rw [hv, ← this]; exact hw'

/-- C25: which started clocks run, and their exact waveform at every time `t` after the start, for both
implementations and both start levels. (The GPI passes the counts as 64-bit numbers; see
`C25_gpi_overflow`.) -/
theorem C25_start (c : Cfg) (sh : Bool) (hc : c.impl = .gpi → 0 ≤ c.periodSteps ∧ c.periodSteps < 2 ^ 63 ∧
      -(2 ^ 63) ≤ c.highSteps ∧ c.highSteps < 2 ^ 63) :
    (1 ≤ c.highSteps ∧ c.highSteps < c.periodSteps →
      ∃ d, Clock.start c sh = .ok d ∧ d 0 = (0, sh) ∧ (∀ k, (d (k + 1)).2 = !(d k).2) ∧
        ∀ t v, ValueAt d t v ↔ v = wave c.periodSteps.toNat c.highSteps.toNat sh t) ∧
    (¬ (1 ≤ c.highSteps ∧ c.highSteps < c.periodSteps) → Clock.start c sh = .error .valueError) := by
  have alt : ∀ p h (d : Nat → Drive), closed p h sh d → d 0 = (0, sh) ∧ (∀ k, (d (k + 1)).2 = !(d k).2) := by
    intro p h d hd
    refine ⟨by simpa using (hd 0).1, ?_⟩
    intro k
    rcases Nat.even_or_odd' k with ⟨j, hj | hj⟩
    · subst hj; rw [(hd j).1, (hd j).2]
    · subst hj
      have e : 2 * j + 1 + 1 = 2 * (j + 1) := by ring
      rw [e, (hd (j + 1)).1, (hd j).2]; simp
  constructor
  · rintro ⟨h1, h2⟩
    obtain ⟨h, hh⟩ : ∃ h : Nat, c.highSteps = h := ⟨c.highSteps.toNat, by omega⟩
    obtain ⟨p, hp⟩ : ∃ p : Nat, c.periodSteps = p := ⟨c.periodSteps.toNat, by omega⟩
    cases hi : c.impl with
    | gpi =>
      have hb := hc hi
      have hcl := gpi_closed p h sh (by omega)
      refine ⟨gpiDrives p h sh, ?_, (alt p h _ hcl).1, (alt p h _ hcl).2, ?_⟩
      · unfold Clock.start
        rw [hi]
        simp only
        have e1 : (c.periodSteps % 2 ^ 64).toNat = p := by omega
        have e2 : (c.highSteps % 2 ^ 64).toNat = h := by omega
        rw [e1, e2, if_neg (by omega)]
      · rw [hh, hp]; simp only [Int.toNat_natCast]
        exact closed_wave p h sh (by omega) (by omega) _ hcl
    | py =>
      have hcl := py_closed p h sh (by omega)
      refine ⟨pyDrives sh h (p - h), ?_, (alt p h _ hcl).1, (alt p h _ hcl).2, ?_⟩
      · unfold Clock.start
        rw [hi]
        simp only
        rw [if_neg (by omega), if_neg (by omega)]
        have e1 : (c.periodSteps - c.highSteps).toNat = p - h := by omega
        have e2 : c.highSteps.toNat = h := by omega
        rw [e1, e2]
      · rw [hh, hp]; simp only [Int.toNat_natCast]
        exact closed_wave p h sh (by omega) (by omega) _ hcl
  · intro hn
    unfold Clock.start
    cases hi : c.impl with
    | gpi =>
      have hb := hc hi
      simp only
      rw [if_pos]
      by_cases hneg : c.highSteps < 0
      · right; right; omega
      · by_cases hz : c.highSteps = 0
        · right; left; omega
        · right; right; omega
    | py =>
      simp only
      by_cases hz : c.highSteps ≤ 0
      · rw [if_pos hz]
      · rw [if_neg hz, if_pos (by omega)]

/-- C25: both implementations drive the same values at the same times. -/
theorem C25_same (p h : Nat) (sh : Bool) (hp : h < p) : gpiDrives p h sh = pyDrives sh h (p - h) := by
  funext k
  rcases Nat.even_or_odd' k with ⟨j, hj | hj⟩ <;> subst hj
  · rw [(gpi_closed p h sh hp j).1, (py_closed p h sh hp j).1]
  · rw [(gpi_closed p h sh hp j).2, (py_closed p h sh hp j).2]

/-- C25: without the bound the claim fails for the GPI implementation: a period of `2^64 + 4` steps
runs as a period of 4 steps. -/
theorem C25_gpi_overflow : ∃ d, Clock.start ⟨2 ^ 64 + 4, 2, .gpi⟩ true = .ok d ∧ ValueAt d 2 false ∧
    wave (2 ^ 64 + 4) (2 ^ 63 + 2) true 2 = true :=
  ⟨gpiDrives 4 2 true, rfl, ⟨1, by decide, by decide, by decide⟩, by decide +kernel⟩

example : ∃ d, Clock.start ⟨10, 3, .py⟩ false = .ok d ∧ ValueAt d 16 false ∧ ValueAt d 17 true :=
  ⟨_, rfl, ⟨2, by decide, by decide, by decide⟩, ⟨3, by decide, by decide, by decide⟩⟩

/-! ## Waiting for edges -/

theorem mod_pred (p t : Nat) (hp : 0 < p) (ht : 1 ≤ t) :
    (t - 1) % p = if t % p = 0 then p - 1 else t % p - 1 := by
  have hdm := Nat.div_add_mod t p
  have hlt := Nat.mod_lt t hp
  generalize t / p = q at *
  generalize t % p = r at *
  subst hdm
  split
  · rename_i h; subst h
    cases q with
    | zero => simp at ht
    | succ q =>
      have : p * (q + 1) + 0 - 1 = p * q + (p - 1) := by rw [Nat.mul_add_one]; omega
      rw [this, Nat.mul_add_mod, Nat.mod_eq_of_lt (by omega)]
  · have : p * q + r - 1 = p * q + (r - 1) := by omega
    rw [this, Nat.mul_add_mod, Nat.mod_eq_of_lt (by omega)]

/-- Residues (mod the period) of the rising and of the falling edge. -/
def riseAt (p h : Nat) (sh : Bool) : Nat := if sh then 0 else p - h
def fallAt (h : Nat) (sh : Bool) : Nat := if sh then h else 0

theorem isEdge_wave (p h : Nat) (sh : Bool) (h1 : 1 ≤ h) (hp : h < p) (e : Edge) (t : Nat) (ht : 1 ≤ t) :
    isEdge (wave p h sh) e t = true ↔
      (match e with
        | .rising => t % p = riseAt p h sh
        | .falling => t % p = fallAt h sh
        | .change => t % p = riseAt p h sh ∨ t % p = fallAt h sh) := by
  have hm := mod_pred p t (by omega) ht
  have hlt := Nat.mod_lt t (show 0 < p by omega)
  unfold isEdge wave riseAt fallAt
  rw [hm]
  clear hm
  generalize t % p = r at *
  by_cases hr0 : r = 0 <;> cases e <;> cases sh <;> simp [hr0] <;> omega

/-- Number of edges at the `n` times from `a` on. -/
def cnt (E : Nat → Bool) (a n : Nat) : Nat := (List.range' a n).countP E

theorem cnt_add (E : Nat → Bool) (a x y : Nat) : cnt E a (x + y) = cnt E a x + cnt E (a + x) y := by
  unfold cnt
  rw [← List.countP_append]
  congr 1
  simp

theorem cnt_one (E : Nat → Bool) (a : Nat) : cnt E a 1 = if E a then 1 else 0 := by
  simp [cnt, List.range'_one]

/-- A window of one period holds the same number of edges wherever it starts. -/
theorem cnt_shift (E : Nat → Bool) (p : Nat) (hper : ∀ t, 1 ≤ t → E (t + p) = E t) (a : Nat) (ha : 1 ≤ a) :
    cnt E a p = cnt E 1 p := by
  induction a with
  | zero => omega
  | succ a ih =>
    by_cases h0 : a = 0
    · subst h0; rfl
    · rw [← ih (by omega)]
      have h2 : cnt E a (1 + p) = cnt E a 1 + cnt E (a + 1) p := cnt_add E a 1 p
      have h3 : cnt E a (p + 1) = cnt E a p + cnt E (a + p) 1 := cnt_add E a p 1
      rw [Nat.add_comm 1 p] at h2
      rw [cnt_one] at h2 h3
      rw [hper a (by omega)] at h3
      omega

theorem cnt_mul (E : Nat → Bool) (p : Nat) (hper : ∀ t, 1 ≤ t → E (t + p) = E t) (a : Nat) (ha : 1 ≤ a) (m : Nat) :
    cnt E a (p * m) = cnt E 1 p * m := by
  induction m generalizing a with
  | zero => simp [cnt]
  | succ m ih =>
    have : p * (m + 1) = p + p * m := by ring
    rw [this, cnt_add, cnt_shift E p hper a ha, ih (a + p) (by omega)]; ring

theorem cnt_residue (p r : Nat) (hr : r < p) : cnt (fun t => decide (t % p = r)) 1 p = 1 := by
  have e3 : cnt (fun t => decide (t % p = r)) 0 p = 1 := by
    unfold cnt
    rw [← List.range_eq_range']
    have : (List.range p).countP (fun t => decide (t % p = r)) = (List.range p).countP (fun t => t == r) := by
      apply List.countP_congr
      intro x hx
      simp only [List.mem_range] at hx
      simp [Nat.mod_eq_of_lt hx]
    rw [this]
    have := List.nodup_iff_count_eq_one.1 (List.nodup_range (n := p)) r (List.mem_range.2 hr)
    simpa [List.count] using this
  have e4 : (fun t => decide (t % p = r)) p = (fun t => decide (t % p = r)) 0 := by
    have h : p % p = 0 % p := by simp
    simp only [h]
  generalize (fun t => decide (t % p = r)) = E at *
  have e1 : cnt E 0 (1 + p) = cnt E 0 1 + cnt E (0 + 1) p := cnt_add E 0 1 p
  have e2 : cnt E 0 (p + 1) = cnt E 0 p + cnt E (0 + p) 1 := cnt_add E 0 p 1
  rw [cnt_one] at e1 e2
  rw [Nat.zero_add, e4] at e2
  rw [Nat.add_comm 1 p, Nat.zero_add] at e1
  omega

/-- Everything about the edges of a clock that waiting for them needs. -/
theorem clock_edges (p h : Nat) (sh : Bool) (h1 : 1 ≤ h) (hp : h < p) (e : Edge) :
    (∀ t, 1 ≤ t → isEdge (wave p h sh) e (t + p) = isEdge (wave p h sh) e t) ∧
    cnt (isEdge (wave p h sh) e) 1 p = if e = .change then 2 else 1 := by
  have hr : riseAt p h sh < p := by unfold riseAt; split <;> omega
  have hf : fallAt h sh < p := by unfold fallAt; split <;> omega
  have hne : riseAt p h sh ≠ fallAt h sh := by unfold riseAt fallAt; split <;> omega
  constructor
  · intro t ht
    rw [Bool.eq_iff_iff, isEdge_wave p h sh h1 hp e t ht, isEdge_wave p h sh h1 hp e (t + p) (by omega)]
    simp
  · have key : ∀ (P : Nat → Bool), (∀ t, 1 ≤ t → P t = isEdge (wave p h sh) e t) →
        cnt (isEdge (wave p h sh) e) 1 p = cnt P 1 p := by
      intro P hP
      unfold cnt
      apply List.countP_congr
      intro x hx
      rw [List.mem_range'_1] at hx
      rw [hP x hx.1]
    cases e with
    | rising =>
      rw [key (fun t => decide (t % p = riseAt p h sh)) (by
        intro t ht; rw [Bool.eq_iff_iff, isEdge_wave p h sh h1 hp .rising t ht]; simp)]
      simp [cnt_residue p _ hr]
    | falling =>
      rw [key (fun t => decide (t % p = fallAt h sh)) (by
        intro t ht; rw [Bool.eq_iff_iff, isEdge_wave p h sh h1 hp .falling t ht]; simp)]
      simp [cnt_residue p _ hf]
    | change =>
      rw [key (fun t => decide (t % p = riseAt p h sh) || decide (t % p = fallAt h sh)) (by
        intro t ht; rw [Bool.eq_iff_iff, isEdge_wave p h sh h1 hp .change t ht]; simp)]
      have hsum : ∀ l : List Nat, l.countP (fun t => decide (t % p = riseAt p h sh) || decide (t % p = fallAt h sh)) =
          l.countP (fun t => decide (t % p = riseAt p h sh)) + l.countP (fun t => decide (t % p = fallAt h sh)) := by
        intro l
        induction l with
        | nil => rfl
        | cons x xs ih =>
          rw [List.countP_cons, List.countP_cons, List.countP_cons, ih]
          by_cases a : x % p = riseAt p h sh
          · have b : ¬ x % p = fallAt h sh := by rw [a]; exact hne
            simp [a, hne]; omega
          · by_cases b : x % p = fallAt h sh
            · simp [b, Ne.symm hne]; omega
            · simp [a, b]
      have a := cnt_residue p _ hr
      have b := cnt_residue p _ hf
      unfold cnt at a b ⊢
      rw [hsum, a, b]; simp

/-! ### Composition of waits -/

theorem edgesIn_eq (E : Nat → Bool) (a b : Nat) : edgesIn E a b = cnt E a (b + 1 - a) := rfl

theorem NthEdge.comp {E : Nat → Bool} {a b : Nat} {m m1 m2 : Moment} (h1 : NthEdge E a m m1) (h2 : NthEdge E b m1 m2) :
    NthEdge E (a + b) m m2 := by
  obtain ⟨x1, x2, x3, x4⟩ := h1
  obtain ⟨y1, y2, y3, y4⟩ := h2
  have hn : m1.next = m1.time + 1 := by simp [Moment.next, x1]
  rw [hn] at y2 y4
  refine ⟨y1, by omega, y3, ?_⟩
  rw [edgesIn_eq] at *
  have e : m2.time + 1 - m.next = (m1.time + 1 - m.next) + (m2.time + 1 - (m1.time + 1)) := by omega
  have e2 : m.next + (m1.time + 1 - m.next) = m1.time + 1 := by omega
  rw [e, cnt_add, x4, e2, y4]

theorem runs_edges {E : Nat → Bool} (n : Nat) {m m' : Moment} (h : Runs E (List.replicate (n + 1) .edge) m m') :
    NthEdge E (n + 1) m m' := by
  induction n generalizing m with
  | zero =>
    cases h with
    | cons h1 h2 => cases h2; exact h1
  | succ n ih =>
    rw [List.replicate_succ] at h
    cases h with
    | cons h1 h2 =>
      have := NthEdge.comp h1 (ih h2)
      rwa [Nat.add_comm] at this

/-- There is always a next edge. -/
theorem next_exists {E : Nat → Bool} {p : Nat} (hper : ∀ t, 1 ≤ t → E (t + p) = E t)
    (hpos : 0 < cnt E 1 p) (m : Moment) (hm : 1 ≤ m.next) : ∃ m', NthEdge E 1 m m' := by
  have h1 := cnt_shift E p hper m.next hm
  have h2 : ∃ k, E (m.next + k) = true := by
    rw [← h1] at hpos
    unfold cnt at hpos
    rw [List.countP_pos_iff] at hpos
    obtain ⟨x, hx, hE⟩ := hpos
    rw [List.mem_range'_1] at hx
    exact ⟨x - m.next, by rw [Nat.add_sub_cancel' hx.1]; exact hE⟩
  classical
  let k := Nat.find h2
  have hk : E (m.next + k) = true := Nat.find_spec h2
  refine ⟨⟨m.next + k, true⟩, rfl, by simp, hk, ?_⟩
  rw [edgesIn_eq]
  have e : m.next + k + 1 - m.next = k + 1 := by omega
  simp only [e]
  rw [cnt_add, cnt_one, hk]
  have : cnt E m.next k = 0 := by
    unfold cnt
    rw [List.countP_eq_zero]
    intro x hx
    rw [List.mem_range'_1] at hx
    have := Nat.find_min h2 (m := x - m.next) (by omega)
    rwa [Nat.add_sub_cancel' hx.1] at this
  simp [this]

theorem runs_exists {E : Nat → Bool} {p : Nat} (hper : ∀ t, 1 ≤ t → E (t + p) = E t)
    (hpos : 0 < cnt E 1 p) (as : List Await) (m : Moment) (hm : 1 ≤ m.next) (hk : ∀ k, .timer k ∈ as → 1 ≤ k) :
    ∃ m', Runs E as m m' := by
  induction as generalizing m with
  | nil => exact ⟨m, .nil m⟩
  | cons a as ih =>
    have ih' := fun m hm => ih m hm (fun k hk' => hk k (by simp [hk']))
    cases a with
    | null => obtain ⟨m', h⟩ := ih' m hm; exact ⟨m', .cons rfl h⟩
    | timer k =>
      have h1 : 1 ≤ k := hk k (by simp)
      obtain ⟨m', h⟩ := ih' ⟨m.time + k, false⟩ (by simp [Moment.next]; omega)
      exact ⟨m', .cons rfl h⟩
    | edge =>
      obtain ⟨m1, h1⟩ := next_exists hper hpos m hm
      obtain ⟨m', h⟩ := ih' m1 (by simp [Moment.next, h1.1])
      exact ⟨m', .cons h1 h⟩

/-- Skipping with a timer from one edge to the same phase `S` edges later counts as `S` edges. -/
theorem runs_skip {E : Nat → Bool} {p : Nat} (hper : ∀ t, 1 ≤ t → E (t + p) = E t) (q r : Nat) (hq : 1 ≤ q) (hp : 1 ≤ p)
    {m m' : Moment} (hm : 1 ≤ m.next)
    (h : Runs E (.edge :: .timer (p * q) :: List.replicate (r + 1) .edge) m m') :
    NthEdge E (cnt E 1 p * q + r + 1) m m' := by
  cases h with
  | cons h1 h2 => cases h2 with
    | cons h3 h4 =>
      obtain ⟨x1, x2, x3, x4⟩ := h1
      simp only [Resumes] at h3
      obtain ⟨y1, y2, y3, y4⟩ := runs_edges r h4
      rename_i m1 m2
      subst h3
      simp only [Moment.next, Bool.false_eq_true, if_false] at y2 y4
      have hpq : 1 ≤ p * q := Nat.mul_pos hp hq
      refine ⟨y1, by omega, y3, ?_⟩
      rw [edgesIn_eq] at *
      have hE : E (m1.time + p * q) = true := by
        have : ∀ k, E (m1.time + p * k) = true := by
          intro k
          induction k with
          | zero => simpa using x3
          | succ k ih =>
            have : m1.time + p * (k + 1) = m1.time + p * k + p := by ring
            rw [this, hper _ (by omega)]; exact ih
        exact this q
      have c1 := cnt_mul E p hper (m1.time + 1) (by omega) q
      have c2 : cnt E (m1.time + 1) (p * q) = cnt E (m1.time + 1) (p * q - 1) + 1 := by
        have e : p * q = (p * q - 1) + 1 := by omega
        rw [e, cnt_add, cnt_one]
        have e2 : m1.time + 1 + (p * q - 1) = m1.time + p * q := by omega
        rw [e2, hE]; simp
      have e : m'.time + 1 - m.next = (m1.time + 1 - m.next) + ((p * q - 1) + (m'.time + 1 - (m1.time + p * q))) := by omega
      rw [e, cnt_add, cnt_add, x4]
      have e2 : m.next + (m1.time + 1 - m.next) = m1.time + 1 := by omega
      have e3 : m1.time + 1 + (p * q - 1) = m1.time + p * q := by omega
      rw [e2, e3, y4]
      omega

/-- C26: on a running clock, `cycles(n, edge)` called at any moment after the clock's first drive
returns exactly at the `n`-th edge of the requested kind after the call; for `n = 0` it returns at
once; for negative `n` it raises `ValueError`. -/
theorem C26_cycles (p h : Nat) (sh : Bool) (h1 : 1 ≤ h) (hp : h < p) (e : Edge) (n : Int) :
    (n < 0 → cyclesPlan p n e = .error .valueError) ∧
    (0 ≤ n → ∃ plan, cyclesPlan p n e = .ok plan ∧ ∀ m : Moment, 1 ≤ m.next →
      (∃ m', Runs (isEdge (wave p h sh) e) plan m m') ∧
      ∀ m', Runs (isEdge (wave p h sh) e) plan m m' →
        (n = 0 ∧ m' = m) ∨ (1 ≤ n ∧ NthEdge (isEdge (wave p h sh) e) n.toNat m m')) := by
  obtain ⟨hper, hcnt⟩ := clock_edges p h sh h1 hp e
  have hpos : 0 < cnt (isEdge (wave p h sh) e) 1 p := by rw [hcnt]; split <;> omega
  generalize hE : isEdge (wave p h sh) e = E at *
  unfold cyclesPlan
  constructor
  · intro hn
    rw [if_neg (by omega), if_pos hn]
  · intro hn
    by_cases h0 : n = 0
    · rw [if_pos h0]
      refine ⟨_, rfl, fun m hm => ⟨⟨m, .cons rfl (.nil m)⟩, ?_⟩⟩
      intro m' hr
      cases hr with
      | cons a b => cases b; exact Or.inl ⟨h0, a⟩
    · rw [if_neg h0, if_neg (by omega)]
      simp only
      obtain ⟨k, hk⟩ : ∃ k : Nat, n = k + 1 := ⟨n.toNat - 1, by omega⟩
      have hk' : n.toNat = k + 1 := by omega
      rw [hk']
      simp only [Nat.add_sub_cancel]
      by_cases h2 : k ≥ 2
      · rw [if_pos h2]
        by_cases hc : e = .change
        · rw [if_pos hc]
          obtain ⟨q, r, hqr, hr⟩ : ∃ q r, k = 2 * q + r ∧ r < 2 := ⟨k / 2, k % 2, by omega, by omega⟩
          have e1 : k / 2 * 2 = 2 * q := by omega
          have e2 : p * (2 * q) / 2 = p * q := by
            have : p * (2 * q) = 2 * (p * q) := by ring
            omega
          have e3 : k - 2 * q + 1 = r + 1 := by omega
          rw [e1, e2, e3]
          refine ⟨_, rfl, fun m hm => ⟨runs_exists hper hpos _ m hm ?_, ?_⟩⟩
          · intro x hx
            simp at hx
            rw [hx]; exact Nat.mul_pos (by omega) (by omega)
          · intro m' hr
            right
            refine ⟨by omega, ?_⟩
            have := runs_skip hper q r (by omega) (by omega) hm hr
            rw [hcnt, if_pos hc] at this
            rw [hqr]; exact this
        · rw [if_neg hc]
          refine ⟨_, rfl, fun m hm => ⟨runs_exists hper hpos _ m hm ?_, ?_⟩⟩
          · intro x hx
            simp at hx
            rw [hx]; exact Nat.mul_pos (by omega) (by omega)
          · intro m' hr
            right
            refine ⟨by omega, ?_⟩
            have := runs_skip hper k 0 (by omega) (by omega) hm hr
            rw [hcnt, if_neg hc] at this
            simpa using this
      · rw [if_neg h2]
        refine ⟨_, rfl, fun m hm => ⟨runs_exists hper hpos _ m hm ?_, ?_⟩⟩
        · intro x hx; simp at hx
        · intro m' hr
          right
          refine ⟨by omega, ?_⟩
          exact runs_edges k (by rw [List.replicate_succ]; exact hr)

/-- C26: `ClockCycles(signal, n)` returns at the `n`-th edge of any signal, whatever its edges. -/
theorem C26_clockcycles (E : Nat → Bool) (n : Nat) (m m' : Moment)
    (h : Runs E (clockCyclesPlan (n + 1 : Nat)) m m') : NthEdge E (n + 1) m m' := by
  apply runs_edges
  simpa [clockCyclesPlan] using h

/-- C26: the `n`-th edge is unique, so the above says exactly when the wait ends. -/
theorem C26_unique (E : Nat → Bool) (n : Nat) (m a b : Moment) (ha : NthEdge E n m a) (hb : NthEdge E n m b) : a = b := by
  obtain ⟨x1, x2, x3, x4⟩ := ha
  obtain ⟨y1, y2, y3, y4⟩ := hb
  have key : ∀ s t, m.next ≤ s → E t = true → s < t → edgesIn E m.next s < edgesIn E m.next t := by
    intro s t hs ht hlt
    rw [edgesIn_eq, edgesIn_eq]
    have e : t + 1 - m.next = (s + 1 - m.next) + ((t - s - 1) + 1) := by omega
    rw [e, cnt_add, cnt_add, cnt_one]
    have e2 : m.next + (s + 1 - m.next) + (t - s - 1) = t := by omega
    rw [e2, ht]; simp
  have ht : a.time = b.time := by
    rcases Nat.lt_trichotomy a.time b.time with h | h | h
    · have := key _ _ x2 y3 h; omega
    · exact h
    · have := key _ _ y2 x3 h; omega
  cases a; cases b; simp_all

example : Runs (isEdge (wave 10 3 true) .rising) [.edge, .timer 30, .edge] ⟨4, true⟩ ⟨40, true⟩ ∧
    cyclesPlan 10 4 .rising = .ok [.edge, .timer 30, .edge] :=
  ⟨.cons (m' := ⟨10, true⟩) ⟨rfl, by decide, by decide, by decide⟩ (.cons (m' := ⟨40, false⟩) rfl
    (.cons (m' := ⟨40, true⟩) ⟨rfl, by decide, by decide, by decide⟩ (.nil _))), rfl⟩

end Verif
