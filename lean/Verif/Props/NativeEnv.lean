import Verif.Spec.Embed
import Verif.Lemmas.Env
import Verif.Model.GpiLog
/-!
# C153: the environment variables read by the native part
-/
namespace Verif
open Verif.Embed Verif.EmbedSpec Verif.EnvSpec Verif.Env

namespace NativeEnv

theorem spells_upper (up : Nat → Text) : ∀ (w t : Text), (∀ c ∈ w, 97 ≤ c ∧ c ≤ 122) → Spells w t →
    upperText up t = w.map (· - 32)
  | [], [], _, _ => rfl
  | [], _ :: _, _, h => h.elim
  | _ :: _, [], _, h => h.elim
  | c :: w, d :: t, hw, h => by
    have hc := hw c List.mem_cons_self
    have ih := spells_upper up w t (fun x hx => hw x (List.mem_cons_of_mem _ hx)) h.2
    have h1 : upperChar up d = [c - 32] := by
      rcases h.1 with rfl | ⟨-, -, h3⟩
      · unfold upperChar
        rw [if_pos (by omega), if_pos (by omega)]
      · unfold upperChar
        rw [if_pos (by omega), if_neg (by omega)]
        congr 1
        omega
    show upperChar up d ++ upperText up t = _
    rw [h1, ih]; rfl

theorem digits_value (ds : List Nat) (acc : Nat) :
    (ds.map (48 + ·)).foldl (fun n d => 10 * n + (d - 48)) acc = ds.foldl (fun n d => 10 * n + d) acc := by
  induction ds generalizing acc with
  | nil => rfl
  | cons d ds ih =>
    simp only [List.map_cons, List.foldl_cons]
    rw [show 48 + d - 48 = d by omega]
    exact ih _

theorem takeWhile_stop {p : Nat → Bool} {a b : Text} (ha : ∀ c ∈ a, p c = true) (hb : ∀ c, b.head? = some c → p c = false) :
    (a ++ b).takeWhile p = a := by
  rw [List.takeWhile_append_of_pos ha]
  cases b with
  | nil => simp
  | cons c b => simp [hb c rfl]

theorem dropWhile_stop {p : Nat → Bool} {a b : Text} (ha : ∀ c ∈ a, p c = true) (hb : ∀ c, b.head? = some c → p c = false) :
    (a ++ b).dropWhile p = b := by
  rw [List.dropWhile_append_of_pos ha]
  cases b with
  | nil => rfl
  | cons c b => simp [hb c rfl]

/-- A number with blanks around it. -/
theorem strtoul_number (a ds b : List Nat) (ha : ∀ c ∈ a, cSpace c = true) (hd : ∀ d ∈ ds, d < 10) (hn : ds ≠ [])
    (hb : ∀ c ∈ b, cSpace c = true) :
    strtoul (a ++ ds.map (48 + ·) ++ b) =
      if 2 ^ 64 ≤ positional ds then (2 ^ 64 - 1, true) else (positional ds, false) := by
  obtain ⟨d, ds', rfl⟩ := List.exists_cons_of_ne_nil hn
  have hd0 := hd d List.mem_cons_self
  have h1 : (a ++ (d :: ds').map (48 + ·) ++ b).dropWhile cSpace = (d :: ds').map (48 + ·) ++ b := by
    rw [List.append_assoc]
    apply dropWhile_stop ha
    intro c hc
    simp at hc
    subst hc
    simp [cSpace]
    omega
  have h2 : ((d :: ds').map (48 + ·) ++ b).takeWhile cDigit = (d :: ds').map (48 + ·) := by
    apply takeWhile_stop
    · intro c hc
      obtain ⟨x, hx, rfl⟩ := List.mem_map.1 hc
      have := hd x hx
      simp [cDigit]; omega
    · intro c hc
      have := hb c (List.mem_of_mem_head? (by simpa using hc))
      simp [cSpace] at this
      simp [cDigit]; omega
  have h3 : ((d :: ds').map (48 + ·) ++ b).head? = some (48 + d) := by simp
  have h5 : (some (48 + d) = some 45) = False := by simp; omega
  have h6 : (some (48 + d) = some 43) = False := by simp; omega
  unfold strtoul
  simp only [h1, h3, h5, h6, or_self, if_false]
  rw [h2, digitsValue, digits_value]
  rfl

end NativeEnv

open NativeEnv

/-! ### Switches -/

/-- `PYGPI_DEBUG` (and `GPI_DEBUG`, which is read in the same way) is a boolean variable. -/
def C153_switch_full : Prop := ∀ v b, BoolVar v b → debugOn v = b

/-- `PYGPI_DEBUG=false` switches debugging on. -/
theorem C153_switch_counterexample : ¬ C153_switch_full := by
  intro h
  have := h (some (ofStr "false".toList)) false
    (.inr ⟨_, ofStr "false".toList, rfl, ⟨[], [], by decide, by decide, by decide, by decide, by decide⟩,
      .inr ⟨"false", by decide, by simp [ofStr, Spells, SameLetter]⟩⟩)
  revert this
  decide

/-- **C153** All spellings of true switch debugging on; it is off if the variable is unset or `0`. Missing: the other
spellings of false, and blank values. -/
theorem C153_switch_partial :
    (∀ v, BoolVar v true → debugOn v = true) ∧ debugOn none = false ∧ debugOn (some (ofStr "0".toList)) = false := by
  refine ⟨?_, rfl, by decide⟩
  intro v h
  rcases h with ⟨-, h⟩ | ⟨x, t, rfl, ht, h⟩
  · cases h
  · rcases h with ⟨-, h⟩ | h
    · cases h
    · simp only [debugOn, bne_iff_ne, ne_eq]
      rintro rfl
      have e1 := strip_eq ht
      have e2 : stripText [48] = [48] := by decide
      rw [e2] at e1
      subst e1
      obtain ⟨w, hw, hs⟩ := h
      simp only [words, List.mem_cons, List.not_mem_nil, or_false] at hw
      rcases hw with rfl | rfl | rfl | rfl | rfl | rfl <;> simp [ofStr, Spells, SameLetter] at hs

example : BoolVar (some (ofStr " Yes".toList)) true :=
  .inr ⟨_, ofStr "Yes".toList, rfl, ⟨[32], [], by decide, by decide, by decide, by decide, by decide⟩,
    .inr ⟨"yes", by decide, by simp [ofStr, Spells, SameLetter]⟩⟩

/-! ### The level -/

/-- `GPI_LOG_LEVEL` sets the level of the native logger and of the Python logger. -/
def C153_level_full : Prop :=
  ∀ (up : Nat → Text) (v : Text) (n now now' : Nat), Level v n →
    nativeLevel now (some v) = n ∧ pyLevel up now' (some v) = .ok n

/-- `GPI_LOG_LEVEL=debug` sets the level of the Python logger only. -/
theorem C153_level_counterexample : ¬ C153_level_full := by
  intro h
  have := (h (fun _ => []) (ofStr "debug".toList) 10 20 20
    ⟨ofStr "debug".toList, ⟨[], [], by decide, by decide, by decide, by decide, by decide⟩, ("debug", 10), by decide,
      by simp [ofStr, Spells, SameLetter], rfl⟩).1
  revert this
  decide

/-- **C153** A level written in capital letters without blanks is set for both loggers. Missing: small letters and
blanks, for the native logger. -/
theorem C153_level_partial (up : Nat → Text) (now now' : Nat) :
    ∀ p ∈ [("TRACE", 5), ("DEBUG", 10), ("INFO", 20), ("WARNING", 30), ("ERROR", 40), ("CRITICAL", 50)],
      nativeLevel now (some (ofStr p.1.toList)) = p.2 ∧ pyLevel up now' (some (ofStr p.1.toList)) = .ok p.2 := by
  intro p hp
  have hpy : ∀ (c u : String) n, stripText (ofStr c.toList) = ofStr c.toList → Spells (ofStr u.toList) (ofStr c.toList) →
      (∀ x ∈ ofStr u.toList, 97 ≤ x ∧ x ≤ 122) → (ofStr u.toList).map (· - 32) = ofStr c.toList → ofStr c.toList ≠ [] →
      (pyLevels.find? fun p => ofStr p.1.toList == ofStr c.toList) = some (c, n) →
      pyLevel up now' (some (ofStr c.toList)) = .ok n := by
    intro c u n h1 h2 h3 h4 h5 h6
    unfold pyLevel
    simp only [Option.getD_some, h1, spells_upper up _ _ h3 h2, h4]
    rw [if_neg h5, h6]
  simp only [List.mem_cons, List.not_mem_nil, or_false] at hp
  rcases hp with rfl | rfl | rfl | rfl | rfl | rfl
  · exact ⟨rfl, hpy _ "trace" _ (by decide) (by simp [ofStr, Spells, SameLetter]) (by decide) (by decide) (by decide) (by decide)⟩
  · exact ⟨rfl, hpy _ "debug" _ (by decide) (by simp [ofStr, Spells, SameLetter]) (by decide) (by decide) (by decide) (by decide)⟩
  · exact ⟨rfl, hpy _ "info" _ (by decide) (by simp [ofStr, Spells, SameLetter]) (by decide) (by decide) (by decide) (by decide)⟩
  · exact ⟨rfl, hpy _ "warning" _ (by decide) (by simp [ofStr, Spells, SameLetter]) (by decide) (by decide) (by decide) (by decide)⟩
  · exact ⟨rfl, hpy _ "error" _ (by decide) (by simp [ofStr, Spells, SameLetter]) (by decide) (by decide) (by decide) (by decide)⟩
  · exact ⟨rfl, hpy _ "critical" _ (by decide) (by simp [ofStr, Spells, SameLetter]) (by decide) (by decide) (by decide) (by decide)⟩

/-- **C153** The Python logger gets the level in all spellings; an unset or blank variable changes nothing. -/
theorem C153_level_python (up : Nat → Text) (now : Nat) :
    (∀ v n, Level v n → pyLevel up now (some v) = .ok n) ∧ pyLevel up now none = .ok now ∧
    ∀ v, Trimmed v [] → pyLevel up now (some v) = .ok now := by
  refine ⟨?_, by simp [pyLevel, stripText, upperText], ?_⟩
  · rintro v n ⟨t, ht, p, hp, hs, rfl⟩
    have e := strip_eq ht
    unfold pyLevel
    simp only [Option.getD_some, e]
    have hl : ∀ x ∈ ofStr p.1.toList, 97 ≤ x ∧ x ≤ 122 := by
      simp only [levels, List.mem_cons, List.not_mem_nil, or_false] at hp
      rcases hp with rfl | rfl | rfl | rfl | rfl | rfl <;> decide
    rw [spells_upper up _ _ hl hs]
    simp only [levels, List.mem_cons, List.not_mem_nil, or_false] at hp
    rcases hp with rfl | rfl | rfl | rfl | rfl | rfl <;> rfl
  · intro v hv
    simp [pyLevel, strip_eq hv, upperText]

/-- **C153** The native logger never gets a level that the value does not name; an unset variable, and any value that is
not a level, change nothing. -/
theorem C153_level_native (now : Nat) :
    nativeLevel now none = now ∧
    (∀ v, (∀ n, ¬ Level v n) → nativeLevel now (some v) = now) ∧
    ∀ v n, Level v n → nativeLevel now (some v) = n ∨ nativeLevel now (some v) = now := by
  have hfind : ∀ (v : Text) p, (levelTable.find? fun p => ofStr p.1.toList == v) = some p → Level v p.2 ∧ p ∈ levelTable := by
    intro v p h
    have h1 := List.find?_some h
    have h2 := List.mem_of_find?_eq_some h
    refine ⟨?_, h2⟩
    simp only [beq_iff_eq] at h1
    subst h1
    simp only [levelTable, List.mem_cons, List.not_mem_nil, or_false] at h2
    rcases h2 with rfl | rfl | rfl | rfl | rfl | rfl
    · exact ⟨ofStr "CRITICAL".toList, ⟨[], [], by decide, by decide, by decide, by decide, by decide⟩, ("critical", 50), by decide,
        by simp [ofStr, Spells, SameLetter], rfl⟩
    · exact ⟨ofStr "ERROR".toList, ⟨[], [], by decide, by decide, by decide, by decide, by decide⟩, ("error", 40), by decide,
        by simp [ofStr, Spells, SameLetter], rfl⟩
    · exact ⟨ofStr "WARNING".toList, ⟨[], [], by decide, by decide, by decide, by decide, by decide⟩, ("warning", 30), by decide,
        by simp [ofStr, Spells, SameLetter], rfl⟩
    · exact ⟨ofStr "INFO".toList, ⟨[], [], by decide, by decide, by decide, by decide, by decide⟩, ("info", 20), by decide,
        by simp [ofStr, Spells, SameLetter], rfl⟩
    · exact ⟨ofStr "DEBUG".toList, ⟨[], [], by decide, by decide, by decide, by decide, by decide⟩, ("debug", 10), by decide,
        by simp [ofStr, Spells, SameLetter], rfl⟩
    · exact ⟨ofStr "TRACE".toList, ⟨[], [], by decide, by decide, by decide, by decide, by decide⟩, ("trace", 5), by decide,
        by simp [ofStr, Spells, SameLetter], rfl⟩
  have hlevel : ∀ v n m, Level v n → Level v m → n = m := by
    rintro v n m ⟨t, ht, p, hp, hs, rfl⟩ ⟨t', ht', p', hp', hs', rfl⟩
    have e : t = t' := (strip_eq ht).symm.trans (strip_eq ht')
    subst e
    have hl : ∀ p ∈ levels, ∀ x ∈ ofStr p.1.toList, 97 ≤ x ∧ x ≤ 122 := by decide
    have e1 := spells_upper (fun _ => []) _ _ (hl p hp) hs
    rw [spells_upper (fun _ => []) _ _ (hl p' hp') hs'] at e1
    have key : ∀ p ∈ levels, ∀ p' ∈ levels,
        (ofStr p'.1.toList).map (· - 32) = (ofStr p.1.toList).map (· - 32) → p.2 = p'.2 := by decide
    exact key p hp p' hp' e1
  refine ⟨rfl, ?_, ?_⟩
  · intro v hv
    simp only [nativeLevel]
    split
    · next p h => exact absurd (hfind v p h).1 (hv _)
    · rfl
  · intro v n hv
    simp only [nativeLevel]
    split
    · next p h => left; exact hlevel v _ _ (hfind v p h).1 hv
    · right; rfl

example : Level (ofStr " Debug".toList) 10 :=
  ⟨ofStr "Debug".toList, ⟨[32], [], by decide, by decide, by decide, by decide, by decide⟩, ("debug", 10), by decide,
    by simp [ofStr, Spells, SameLetter], rfl⟩

/-- **C153** Until Python's logging is set up, the native logger writes the messages with at least the level named by
`GPI_LOG_LEVEL` (in capital letters), or `INFO` without the variable, and drops the others, whatever Python code does with its
own loggers. -/
theorem C153_early (h : List GpiLog.Op) (hs : GpiLog.Op.setup ∉ h) (value : Option Text) (min : Nat)
    (hv : (value = none ∧ min = 20) ∨ ∃ p ∈ EmbedSpec.levels, value = some ((ofStr p.1.toList).map (· - 32)) ∧ min = p.2)
    (name : GpiLog.Name) (level : Nat) :
    GpiLog.log (h.foldl GpiLog.step { GpiLog.init with native := nativeLevel 0 value }) name level =
      if min ≤ level then .native else .dropped := by
  have key : ∀ (h : List GpiLog.Op) (s : GpiLog.St), GpiLog.Op.setup ∉ h → s.ready = false → s.loc = 0 →
      (h.foldl GpiLog.step s).ready = false ∧ (h.foldl GpiLog.step s).loc = 0 ∧ (h.foldl GpiLog.step s).native = s.native := by
    intro h
    induction h with
    | nil => intro s _ h1 h2; exact ⟨h1, h2, rfl⟩
    | cons o h ih =>
      intro s hs h1 h2
      have hs' : GpiLog.Op.setup ∉ h := fun hm => hs (List.mem_cons_of_mem _ hm)
      rw [List.foldl_cons]
      match o, hs with
      | .setup, hs => exact absurd List.mem_cons_self hs
      | .disable l, _ => exact ih _ hs' h1 h2
      | .setLevel n l, _ =>
        have e : GpiLog.step s (.setLevel n l) = { s with levels := fun m => if m = n then l else s.levels m } := by
          simp [GpiLog.step, h1]
        rw [e]
        exact ih _ hs' h1 h2
  obtain ⟨h1, h2, h3⟩ := key h { GpiLog.init with native := nativeLevel 0 value } hs rfl rfl
  have hmin : (if nativeLevel 0 value = 0 then 20 else nativeLevel 0 value) = min := by
    rcases hv with ⟨rfl, rfl⟩ | ⟨p, hp, rfl, rfl⟩
    · rfl
    · clear h1 h2 h3 key hs
      revert p
      decide
  unfold GpiLog.log GpiLog.nativeEnabled
  rw [h1, h2, h3]
  simp only [ne_eq, not_true_eq_false, false_and, if_false, Bool.not_false, if_true, hmin]
  by_cases hl : min ≤ level <;> simp [hl, Nat.not_lt]

example : (ofStr "DEBUG".toList) = (ofStr "debug".toList).map (· - 32) ∧ ("debug", 10) ∈ EmbedSpec.levels := by decide

/-! ### The pause -/

/-- `COCOTB_ATTACH` is an integer variable: the simulator waits for this number of seconds. -/
def C153_attach_full : Prop :=
  ∀ e v n, IntVar v n → 0 < n → n < 2 ^ 32 - 1 → attachPause e (some v) = some n

/-- `COCOTB_ATTACH=1_000` waits for one second. -/
theorem C153_attach_counterexample : ¬ C153_attach_full := by
  intro h
  have := h false (ofStr "1_000".toList) 1000
    ⟨ofStr "1_000".toList, ⟨[], [], by decide, by decide, by decide, by decide, by decide⟩,
      ⟨[[1], [0, 0, 0]], by decide, by decide, by decide, by decide⟩⟩ (by omega) (by omega)
  revert this
  decide

/-- **C153** `COCOTB_ATTACH` set to digits, with blanks of C around them, makes the simulator wait for this number of
seconds; 0 and numbers from 2³² - 1 on are refused; without the variable there is no pause. Missing: other ways to
write integers, and an earlier error left in `errno` (see `C153_attach_errno`). -/
theorem C153_attach_partial :
    (∀ (a ds b : List Nat), (∀ c ∈ a, c = 32 ∨ 9 ≤ c ∧ c ≤ 13) → (∀ d ∈ ds, d < 10) → ds ≠ [] →
      (∀ c ∈ b, c = 32 ∨ 9 ≤ c ∧ c ≤ 13) →
      attachPause false (some (a ++ ds.map (48 + ·) ++ b)) =
        if positional ds = 0 ∨ 2 ^ 32 - 1 ≤ positional ds then none else some (positional ds)) ∧
    ∀ e, attachPause e none = none := by
  refine ⟨?_, fun _ => rfl⟩
  intro a ds b ha hd hn hb
  have hs : ∀ c : Nat, (c = 32 ∨ 9 ≤ c ∧ c ≤ 13) → cSpace c = true := by
    intro c hc
    simp [cSpace]; omega
  unfold attachPause
  simp only [strtoul_number a ds b (fun c hc => hs c (ha c hc)) hd hn (fun c hc => hs c (hb c hc))]
  generalize positional ds = n
  by_cases h1 : 2 ^ 64 ≤ n
  · rw [if_pos h1]
    simp
    omega
  · rw [if_neg h1]
    by_cases h2 : 2 ^ 32 - 1 ≤ n
    · rw [if_pos (.inr h2), if_pos (.inr h2)]
    · rw [if_neg (by simp; omega)]
      by_cases h3 : n = 0
      · rw [if_pos h3, if_pos (.inl h3)]
      · rw [if_neg h3, if_neg (by omega)]

/-- **C153** If an earlier error has left `ERANGE` in `errno` there is no pause. -/
theorem C153_attach_errno (v : Text) : attachPause true (some v) = none := by
  unfold attachPause
  simp

/-- Values that are not integers do not lead to a pause. -/
def C153_attach_other_full : Prop := ∀ e v, (∀ n, ¬ IntVar v n) → attachPause e (some v) = none

/-- `COCOTB_ATTACH=-18446744073709551586` waits for 30 seconds. -/
theorem C153_attach_other_counterexample : ¬ C153_attach_other_full := by
  intro h
  have hx := h false (ofStr "-18446744073709551586".toList) (by
    rintro n ⟨t, ht, gs, hne, hg, e, -⟩
    have e1 := strip_eq ht
    rw [show stripText (ofStr "-18446744073709551586".toList) = ofStr "-18446744073709551586".toList by decide] at e1
    subst e1
    cases gs with
    | nil => exact hne rfl
    | cons g gs =>
      obtain ⟨hgn, hgd⟩ := hg g List.mem_cons_self
      cases g with
      | nil => exact hgn rfl
      | cons d g =>
        have hd := hgd d List.mem_cons_self
        have := congrArg List.head? e
        rw [show (ofStr "-18446744073709551586".toList).head? = some 45 by decide] at this
        cases gs with
        | nil => simp at this; omega
        | cons g2 gs => simp at this; omega)
  revert hx
  decide

end Verif
