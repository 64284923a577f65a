import Verif.Py.Int
/-!
# Decimal numerals: `str(n)` and `int(digits)` for natural numbers
-/
namespace Verif

/-- Character of a decimal digit. -/
def decChar (d : Nat) : Char := Char.ofNat (48 + d)

/-- Value of an ASCII decimal digit (`\d` and `int` also take other Unicode digits; not modelled). -/
def decDigit (c : Char) : Option Nat :=
  if 48 ≤ c.toNat ∧ c.toNat ≤ 57 then some (c.toNat - 48) else none

/-- `str(n)` for `n ≥ 0`. -/
def decStr (n : Nat) : PyStr :=
  if n < 10 then [decChar n] else decStr (n / 10) ++ [decChar (n % 10)]
termination_by n
decreasing_by omega

/-- Value of a string of digits, most significant first. -/
def parseDecDigits : PyStr → Nat → Option Nat
  | [], acc => some acc
  | c :: cs, acc => match decDigit c with
    | some d => parseDecDigits cs (10 * acc + d)
    | none => none

/-- `int(s)` for a string that matches `\d+`. -/
def parseDec (s : PyStr) : Option Nat :=
  match s with
  | [] => none
  | _ => parseDecDigits s 0

/-- `str(v)` for any int. -/
def intStr (v : Int) : PyStr := if v < 0 then '-' :: decStr v.natAbs else decStr v.natAbs

theorem decDigit_decChar (d : Nat) (h : d < 10) : decDigit (decChar d) = some d := by
  match d, h with
  | 0, _ | 1, _ | 2, _ | 3, _ | 4, _ | 5, _ | 6, _ | 7, _ | 8, _ | 9, _ => decide

theorem parseDecDigits_append (a b : PyStr) (acc : Nat) :
    parseDecDigits (a ++ b) acc = (parseDecDigits a acc).bind (parseDecDigits b) := by
  induction a generalizing acc with
  | nil => simp [parseDecDigits]
  | cons c a ih =>
    simp only [List.cons_append, parseDecDigits]
    cases decDigit c <;> simp [ih]

theorem decStr_ne_nil (n : Nat) : decStr n ≠ [] := by
  unfold decStr; split <;> simp

theorem parseDecDigits_decStr (n : Nat) : parseDecDigits (decStr n) 0 = some n := by
  induction n using Nat.strongRecOn with
  | ind n ih =>
    unfold decStr
    split
    · rename_i h; simp [parseDecDigits, decDigit_decChar n h]
    · rename_i h
      rw [parseDecDigits_append, ih (n / 10) (by omega)]
      simp [parseDecDigits, decDigit_decChar (n % 10) (by omega)]
      omega

theorem parseDec_decStr (n : Nat) : parseDec (decStr n) = some n := by
  have := parseDecDigits_decStr n
  unfold parseDec
  split
  · rename_i h; exact absurd h (decStr_ne_nil n)
  · exact this

theorem decStr_inj {m n : Nat} (h : decStr m = decStr n) : m = n := by
  have := parseDec_decStr m
  rw [h, parseDec_decStr] at this
  exact (Option.some.inj this).symm

/-- Every character of a numeral is a digit. -/
theorem decStr_digits (n : Nat) : ∀ c ∈ decStr n, ∃ d, d < 10 ∧ c = decChar d := by
  induction n using Nat.strongRecOn with
  | ind n ih =>
    unfold decStr
    split
    · rename_i h; intro c hc; simp at hc; exact ⟨n, h, hc⟩
    · rename_i h
      intro c hc
      rcases List.mem_append.1 hc with e | e
      · exact ih (n / 10) (by omega) c e
      · simp at e; exact ⟨n % 10, by omega, e⟩

end Verif
