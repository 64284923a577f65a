import Verif.Spec.Versions
import Verif.Lemmas.Env
/-!
# C128: versions of simulators
-/
namespace Verif

open Vers Spec

/-! ## Components -/

theorem pieces_head (U : Unicode) (c : Nat) (cs : Text) : ∃ p r, pieces U (c :: cs) = (c :: p) :: r := by
  unfold pieces
  split
  · exact ⟨_, _, rfl⟩
  · exact ⟨_, _, rfl⟩
  · split <;> exact ⟨_, _, rfl⟩

theorem pieces_dot (U : Unicode) (t : Text) (hd : cls U 46 = .dot) : pieces U (46 :: t) = [46] :: pieces U t := by
  rw [pieces]
  cases t with
  | nil => rfl
  | cons c cs =>
    obtain ⟨p, r, h⟩ := pieces_head U c cs
    rw [h]
    simp [hd]

theorem cls_dot (U : Unicode) : cls U 46 = .dot := by simp [cls, digitOf]

theorem pieces_run (U : Unicode) (k : Cls) (hk : k ≠ .dot) (ds t : Text) (h0 : ds ≠ []) (h : ∀ c ∈ ds, cls U c = k)
    (ht : ∀ c, t.head? = some c → cls U c ≠ k) : pieces U (ds ++ t) = ds :: pieces U t := by
  induction ds with
  | nil => exact absurd rfl h0
  | cons d ds ih =>
    have hd := h d List.mem_cons_self
    cases ds with
    | nil =>
      simp only [List.cons_append, List.nil_append]
      rw [pieces]
      cases t with
      | nil => rfl
      | cons c cs =>
        obtain ⟨p, r, hp⟩ := pieces_head U c cs
        rw [hp]
        have := ht c rfl
        simp only
        rw [if_neg (by rw [hd]; exact fun e => this e.1.symm)]
    | cons d' ds =>
      have hd' := h d' (by simp)
      have := ih (by simp) (fun c hc => h c (List.mem_cons_of_mem _ hc))
      rw [List.cons_append, pieces, this]
      simp [hd, hd', hk]

theorem cls_digit {U : Unicode} {c : Nat} : cls U c = .digit ↔ IsDigit U c := by
  unfold cls IsDigit
  cases h : digitOf U c with
  | none => simp; split <;> (try split) <;> simp
  | some d => simp

theorem lower_notDigit {U : Unicode} {c : Nat} (h : IsLower c) : digitOf U c = none := by
  unfold IsLower at h
  unfold digitOf
  rw [if_pos (by omega), if_neg (by omega)]

theorem cls_lower {U : Unicode} {c : Nat} : cls U c = .lower ↔ IsLower c := by
  constructor
  · unfold cls
    split
    · intro h; cases h
    · split
      · intro _; assumption
      · split <;> intro h <;> cases h
  · intro h
    unfold cls
    rw [lower_notDigit h]
    simp only [Option.isSome_none, Bool.false_eq_true, if_false]
    exact if_pos h

theorem cls_other {U : Unicode} {c : Nat} : cls U c = .other ↔ IsMark U c := by
  unfold IsMark
  rw [← cls_digit (U := U), ← cls_lower (U := U)]
  by_cases h : c = 46
  · subst h; simp [cls_dot]
  · unfold cls
    split
    · simp
    · split
      · simp
      · simp [h]

theorem digit_notBlank {U : Unicode} (hU : SaneDigits U) {c : Nat} (h : IsDigit U c) : isBlank c = false := by
  obtain ⟨d, h⟩ := h
  cases hb : isBlank c
  · rfl
  · unfold digitOf at h
    by_cases hc : c < 128
    · rw [if_pos hc] at h
      split at h
      · rename_i h'
        simp only [isBlank, Bool.or_eq_true, Bool.and_eq_true, decide_eq_true_eq, beq_iff_eq] at hb
        omega
      · cases h
    · rw [if_neg hc, hU c hb] at h; cases h

theorem strip_none {t : Text} (h : ∀ c ∈ t, isBlank c = false) : stripText t = t := by
  have key : ∀ l : Text, (∀ c ∈ l, isBlank c = false) → l.dropWhile isBlank = l := by
    intro l hl
    cases l with
    | nil => rfl
    | cons c l => rw [List.dropWhile_cons, hl c List.mem_cons_self]; rfl
  unfold stripText
  rw [key t h, key t.reverse (fun c hc => h c (List.mem_reverse.1 hc)), List.reverse_reverse]

theorem intDigits_run {U : Unicode} (ds : Text) (need : Bool) (acc : Nat) (h : ∀ c ∈ ds, IsDigit U c)
    (hn : need = true → ds ≠ []) :
    intDigits U need acc ds = some (ds.foldl (fun n c => 10 * n + (digitOf U c).getD 0) acc) := by
  induction ds generalizing need acc with
  | nil =>
    cases need
    · rfl
    · exact absurd rfl (hn rfl)
  | cons c ds ih =>
    obtain ⟨d, hd⟩ := h c List.mem_cons_self
    rw [intDigits, hd]
    simp only [List.foldl_cons, hd, Option.getD_some]
    exact ih false _ (fun x hx => h x (List.mem_cons_of_mem _ hx)) (by simp)

theorem comp_digits {U : Unicode} (hU : SaneDigits U) {ds : Text} (h0 : ds ≠ []) (h : ∀ c ∈ ds, IsDigit U c) :
    comp U ds = .num (digitsValue U ds) := by
  have hs : stripText ds = ds := strip_none fun c hc => digit_notBlank hU (h c hc)
  unfold comp intOf
  rw [hs]
  cases ds with
  | nil => exact absurd rfl h0
  | cons c ds =>
    have hc : c ≠ 45 ∧ c ≠ 43 := by
      obtain ⟨d, hd⟩ := h c List.mem_cons_self
      constructor <;> (rintro rfl; simp [digitOf] at hd)
    simp only [if_neg hc.1, if_neg hc.2]
    rw [intDigits_run _ _ _ h (by simp)]
    rfl

theorem intDigits_none {U : Unicode} (t : Text) (acc : Nat) (h : ∀ c ∈ t, digitOf U c = none) :
    intDigits U true acc t = none := by
  cases t with
  | nil => rfl
  | cons c t =>
    rw [intDigits, h c List.mem_cons_self]
    simp

theorem comp_text {U : Unicode} {t : Text} (h : ∀ c ∈ t, digitOf U c = none) : comp U t = .str t := by
  have hs : ∀ c ∈ stripText t, digitOf U c = none := by
    intro c hc
    unfold stripText at hc
    have h1 := List.mem_reverse.1 hc
    have h2 := (List.dropWhile_sublist _).subset h1
    have h3 := (List.dropWhile_sublist _).subset (List.mem_reverse.1 h2)
    exact h c h3
  unfold comp intOf
  generalize stripText t = u at hs
  cases u with
  | nil => rfl
  | cons c u =>
    simp only
    by_cases h1 : c = 45
    · rw [if_pos h1, intDigits_none u 0 fun x hx => hs x (List.mem_cons_of_mem _ hx)]
    · rw [if_neg h1, intDigits_none _ 0]
      split
      · exact fun x hx => hs x (List.mem_cons_of_mem _ hx)
      · exact hs

theorem parse_dot (U : Unicode) (t : Text) : parse U (46 :: t) = parse U t := by
  unfold parse
  rw [pieces_dot U t (cls_dot U)]
  simp

theorem parse_run (U : Unicode) (k : Cls) (hk : k ≠ .dot) (ds t : Text) (h0 : ds ≠ []) (h : ∀ c ∈ ds, cls U c = k)
    (ht : ∀ c, t.head? = some c → cls U c ≠ k) : parse U (ds ++ t) = comp U ds :: parse U t := by
  unfold parse
  rw [pieces_run U k hk ds t h0 h ht, List.filter_cons]
  have : ds ≠ [46] := by
    rintro rfl
    have := h 46 List.mem_cons_self
    rw [cls_dot] at this
    exact hk this.symm
  simp [this]

theorem mark_text {U : Unicode} {c : Nat} (h : IsMark U c) : digitOf U c = none := by
  cases e : digitOf U c with
  | none => rfl
  | some d => exact absurd ⟨d, e⟩ h.1

theorem written_parse {U : Unicode} (hU : SaneDigits U) {t : Text} {cs : List Comp} (h : Written U t cs) : parse U t = cs := by
  induction h with
  | nil => rfl
  | dot _ ih => rw [parse_dot, ih]
  | num h0 h1 h2 _ ih =>
    rw [parse_run U .digit (by simp) _ _ h0 (fun c hc => cls_digit.2 (h1 c hc)) (fun c hc e => h2 c hc (cls_digit.1 e)), ih,
      comp_digits hU h0 h1]
  | word h0 h1 h2 _ ih =>
    rw [parse_run U .lower (by simp) _ _ h0 (fun c hc => cls_lower.2 (h1 c hc)) (fun c hc e => h2 c hc (cls_lower.1 e)), ih,
      comp_text fun c hc => lower_notDigit (h1 c hc)]
  | mark h0 h1 h2 _ ih =>
    rw [parse_run U .other (by simp) _ _ h0 (fun c hc => cls_other.2 (h1 c hc)) (fun c hc e => h2 c hc (cls_other.1 e)), ih,
      comp_text fun c hc => mark_text (h1 c hc)]

theorem takeWhile_all {p : Nat → Bool} (l : Text) : ∀ c ∈ l.takeWhile p, p c = true := by
  intro c hc
  induction l with
  | nil => cases hc
  | cons a l ih =>
    rw [List.takeWhile_cons] at hc
    split at hc
    · rcases List.mem_cons.1 hc with rfl | hc
      · assumption
      · exact ih hc
    · cases hc

theorem dropWhile_head {p : Nat → Bool} (l : Text) (c : Nat) (h : (l.dropWhile p).head? = some c) : p c = false := by
  induction l with
  | nil => cases h
  | cons a l ih =>
    rw [List.dropWhile_cons] at h
    split at h
    · exact ih h
    · simp at h; subst h; simpa using ‹¬ p a = true›

theorem parse_written (U : Unicode) (n : Nat) : ∀ t : Text, t.length ≤ n → ∃ cs, Written U t cs := by
  induction n with
  | zero =>
    intro t h
    cases t with
    | nil => exact ⟨_, .nil⟩
    | cons _ _ => simp at h
  | succ n ih =>
    intro t h
    cases t with
    | nil => exact ⟨_, .nil⟩
    | cons c t =>
      simp only [List.length_cons] at h
      -- the run that begins here
      have run : ∀ k : Cls, cls U c = k →
          (∀ x ∈ c :: t.takeWhile (fun x => cls U x == k), cls U x = k) ∧
          (∀ x, (t.dropWhile (fun x => cls U x == k)).head? = some x → cls U x ≠ k) ∧
          (∃ cs, Written U (t.dropWhile (fun x => cls U x == k)) cs) ∧
          c :: t = (c :: t.takeWhile (fun x => cls U x == k)) ++ t.dropWhile (fun x => cls U x == k) := by
        intro k hk
        refine ⟨?_, ?_, ?_, ?_⟩
        · intro x hx
          rcases List.mem_cons.1 hx with rfl | hx
          · exact hk
          · simpa using takeWhile_all t x hx
        · intro x hx
          simpa using dropWhile_head t x hx
        · apply ih
          have := (List.dropWhile_sublist (fun x => cls U x == k) (l := t)).length_le
          omega
        · simp
      cases hk : cls U c with
      | dot =>
        have : c = 46 := by
          unfold cls at hk
          split at hk
          · cases hk
          · split at hk
            · cases hk
            · split at hk
              · assumption
              · cases hk
        subst this
        obtain ⟨cs, hcs⟩ := ih t (by omega)
        exact ⟨cs, .dot hcs⟩
      | digit =>
        obtain ⟨h1, h2, ⟨cs, h3⟩, h4⟩ := run _ hk
        rw [h4]
        exact ⟨_, .num (by simp) (fun x hx => cls_digit.1 (h1 x hx)) (fun x hx e => h2 x hx (cls_digit.2 e)) h3⟩
      | lower =>
        obtain ⟨h1, h2, ⟨cs, h3⟩, h4⟩ := run _ hk
        rw [h4]
        exact ⟨_, .word (by simp) (fun x hx => cls_lower.1 (h1 x hx)) (fun x hx e => h2 x hx (cls_lower.2 e)) h3⟩
      | other =>
        obtain ⟨h1, h2, ⟨cs, h3⟩, h4⟩ := run _ hk
        rw [h4]
        exact ⟨_, .mark (by simp) (fun x hx => cls_other.1 (h1 x hx)) (fun x hx e => h2 x hx (cls_other.2 e)) h3⟩

/-- C128: a version string is taken as the components it is a way to write, for every string; of Questa only what is
before the first blank. -/
theorem C128_components (U : Unicode) (hU : SaneDigits U) (k : Sim) (t : Text) (ht : t ≠ []) (cs : List Comp) :
    (make U k t).version = some cs ↔ Written U (if k = .questa then t.takeWhile (· != 32) else t) cs := by
  unfold make
  rw [if_neg ht]
  simp only [Option.some.injEq]
  generalize (if k = .questa then t.takeWhile (· != 32) else t) = u
  constructor
  · intro h
    obtain ⟨cs', h'⟩ := parse_written U u.length u (Nat.le_refl _)
    have := written_parse hU h'
    rw [← h, this]
    exact h'
  · exact written_parse hU

/-! ## Order -/

theorem textLt_iff (a b : Text) : textLt a b = true ↔ a < b := by
  induction a generalizing b with
  | nil => cases b <;> simp [textLt]
  | cons x a ih =>
    cases b with
    | nil => simp [textLt]
    | cons y b => simp [textLt, ih, List.cons_lt_cons_iff]

theorem compLt_iff (x y : Comp) : compLt x y = .ok true ↔ CompLess x y := by
  cases x <;> cases y <;> simp [compLt, CompLess, textLt_iff]

theorem older_cons (x : Comp) (a b : List Comp) : Older (x :: a) (x :: b) ↔ Older a b := by
  constructor
  · rintro (⟨y, r, h⟩ | ⟨p, y, z, a', b', h1, h2, h3⟩)
    · simp at h; exact Or.inl ⟨y, r, h⟩
    · cases p with
      | nil =>
        simp only [List.nil_append, List.cons.injEq] at h1 h2
        rw [← h1.1, ← h2.1] at h3
        cases x <;> simp [CompLess, List.lt_irrefl] at h3
      | cons q p =>
        simp only [List.cons_append, List.cons.injEq] at h1 h2
        exact Or.inr ⟨p, y, z, a', b', h1.2, h2.2, h3⟩
  · rintro (⟨y, r, h⟩ | ⟨p, y, z, a', b', h1, h2, h3⟩)
    · exact Or.inl ⟨y, r, by simp [h]⟩
    · exact Or.inr ⟨x :: p, y, z, a', b', by simp [h1], by simp [h2], h3⟩

theorem clash_cons (x : Comp) (a b : List Comp) : Clash (x :: a) (x :: b) ↔ Clash a b := by
  constructor
  · rintro ⟨p, a', b', n, t, h⟩
    cases p with
    | nil =>
      simp only [List.nil_append, List.cons.injEq] at h
      rcases h with ⟨h1, h2⟩ | ⟨h1, h2⟩ <;> (have := h1.1.symm.trans h2.1; cases this)
    | cons q p =>
      simp only [List.cons_append, List.cons.injEq] at h
      refine ⟨p, a', b', n, t, ?_⟩
      rcases h with ⟨h1, h2⟩ | ⟨h1, h2⟩
      · exact Or.inl ⟨h1.2, h2.2⟩
      · exact Or.inr ⟨h1.2, h2.2⟩
  · rintro ⟨p, a', b', n, t, ⟨h1, h2⟩ | ⟨h1, h2⟩⟩
    · exact ⟨x :: p, a', b', n, t, Or.inl ⟨by simp [h1], by simp [h2]⟩⟩
    · exact ⟨x :: p, a', b', n, t, Or.inr ⟨by simp [h1], by simp [h2]⟩⟩

theorem older_diff {x y : Comp} (h : x ≠ y) (a b : List Comp) : Older (x :: a) (y :: b) ↔ CompLess x y := by
  constructor
  · rintro (⟨z, r, e⟩ | ⟨p, u, v, a', b', h1, h2, h3⟩)
    · simp at e; exact absurd e.1.symm h
    · cases p with
      | nil =>
        simp only [List.nil_append, List.cons.injEq] at h1 h2
        rw [h1.1, h2.1]; exact h3
      | cons q p =>
        simp only [List.cons_append, List.cons.injEq] at h1 h2
        exact absurd (h1.1.trans h2.1.symm) h
  · intro hc
    exact Or.inr ⟨[], x, y, a, b, rfl, rfl, hc⟩

theorem clash_diff {x y : Comp} (h : x ≠ y) (a b : List Comp) : Clash (x :: a) (y :: b) ↔ compLt x y = .error .typeError := by
  constructor
  · rintro ⟨p, a', b', n, t, hc⟩
    cases p with
    | nil =>
      simp only [List.nil_append, List.cons.injEq] at hc
      rcases hc with ⟨h1, h2⟩ | ⟨h1, h2⟩ <;> rw [h1.1, h2.1] <;> rfl
    | cons q p =>
      simp only [List.cons_append, List.cons.injEq] at hc
      rcases hc with ⟨h1, h2⟩ | ⟨h1, h2⟩ <;> exact absurd (h1.1.trans h2.1.symm) h
  · intro hc
    cases x with
    | num n =>
      cases y with
      | num m => simp [compLt] at hc
      | str t => exact ⟨[], a, b, n, t, Or.inl ⟨rfl, rfl⟩⟩
    | str t =>
      cases y with
      | num n => exact ⟨[], a, b, n, t, Or.inr ⟨rfl, rfl⟩⟩
      | str u => simp [compLt] at hc

theorem text_tri (t u : Text) : t < u ∨ t = u ∨ u < t := by
  induction t generalizing u with
  | nil => cases u <;> simp
  | cons a t ih =>
    cases u with
    | nil => simp
    | cons b u =>
      simp only [List.cons_lt_cons_iff, List.cons.injEq]
      rcases Nat.lt_trichotomy a b with h | h | h
      · simp [h]
      · subst h; rcases ih u with h | h | h <;> simp [h]
      · simp [h]

theorem compLt_cases {x y : Comp} (h : x ≠ y) :
    (CompLess x y ∧ ¬ CompLess y x ∧ compLt x y = .ok true ∧ compLt y x = .ok false) ∨
    (CompLess y x ∧ ¬ CompLess x y ∧ compLt x y = .ok false ∧ compLt y x = .ok true) ∨
    (compLt x y = .error .typeError ∧ ¬ CompLess x y ∧ ¬ CompLess y x ∧ compLt y x = .error .typeError) := by
  cases x with
  | num a =>
    cases y with
    | num b =>
      have : a ≠ b := fun e => h (by rw [e])
      simp only [CompLess, compLt, Except.ok.injEq, decide_eq_true_eq, decide_eq_false_iff_not, reduceCtorEq, false_and, or_false]
      omega
    | str t => simp [CompLess, compLt]
  | str t =>
    cases y with
    | num b => simp [CompLess, compLt]
    | str u =>
      have hne : t ≠ u := fun e => h (by rw [e])
      simp only [CompLess, compLt, Except.ok.injEq, reduceCtorEq, false_and, or_false, ← Bool.not_eq_true, textLt_iff]
      rcases text_tri t u with h1 | h1 | h1
      · exact Or.inl ⟨h1, List.lt_asymm h1, h1, List.lt_asymm h1⟩
      · exact absurd h1 hne
      · exact Or.inr ⟨h1, List.lt_asymm h1, List.lt_asymm h1, h1⟩

theorem older_nil (b : List Comp) : Older [] b ↔ b ≠ [] := by
  constructor
  · rintro (⟨x, r, rfl⟩ | ⟨p, x, y, a', b', h1, -, -⟩)
    · simp
    · simp at h1
  · intro h
    cases b with
    | nil => exact absurd rfl h
    | cons x r => exact Or.inl ⟨x, r, rfl⟩

theorem not_older_nil (a : List Comp) : ¬ Older a [] := by
  rintro (⟨x, r, h⟩ | ⟨p, x, y, a', b', -, h2, -⟩)
  · simp at h
  · simp at h2

theorem clash_nil (a : List Comp) : ¬ Clash [] a ∧ ¬ Clash a [] := by
  constructor <;> (rintro ⟨p, a', b', n, t, ⟨h1, h2⟩ | ⟨h1, h2⟩⟩ <;> simp at h1 h2)

theorem order_cases (a b : List Comp) : a = b ∨
    (Older a b ∧ ¬ Older b a ∧ ¬ Clash a b ∧ listLt a b = .ok true ∧ listLt b a = .ok false) ∨
    (Older b a ∧ ¬ Older a b ∧ ¬ Clash a b ∧ listLt a b = .ok false ∧ listLt b a = .ok true) ∨
    (Clash a b ∧ ¬ Older a b ∧ ¬ Older b a ∧ listLt a b = .error .typeError) := by
  induction a generalizing b with
  | nil =>
    cases b with
    | nil => exact Or.inl rfl
    | cons y b => exact Or.inr (Or.inl ⟨(older_nil _).2 (by simp), not_older_nil _, (clash_nil _).1, rfl, rfl⟩)
  | cons x a ih =>
    cases b with
    | nil => exact Or.inr (Or.inr (Or.inl ⟨(older_nil _).2 (by simp), not_older_nil _, (clash_nil _).2, rfl, rfl⟩))
    | cons y b =>
      by_cases h : x = y
      · subst h
        simp only [older_cons, clash_cons, listLt, if_true, List.cons.injEq, true_and]
        exact ih b
      · right
        have h' : y ≠ x := fun e => h e.symm
        rw [older_diff h, older_diff h', clash_diff h]
        simp only [listLt, if_neg h, if_neg h']
        rcases compLt_cases h with ⟨h1, h2, h3, h4⟩ | ⟨h1, h2, h3, h4⟩ | ⟨h1, h2, h3, h4⟩
        · exact Or.inl ⟨h1, h2, by rw [h3]; simp, h3, h4⟩
        · exact Or.inr (Or.inl ⟨h1, h2, by rw [h3]; simp, h3, h4⟩)
        · exact Or.inr (Or.inr ⟨h1, h2, h3, h1⟩)

theorem older_irrefl (a : List Comp) : ¬ Older a a := by
  induction a with
  | nil => exact not_older_nil _
  | cons x a ih => rw [older_cons]; exact ih

theorem clash_irrefl (a : List Comp) : ¬ Clash a a := by
  induction a with
  | nil => exact (clash_nil _).1
  | cons x a ih => rw [clash_cons]; exact ih

/-- C128: the comparison operators of versions: equal exactly if the components are, `<` exactly if older, and the other
operators accordingly; TypeError exactly if the first difference is between a number and a text. -/
theorem C128_order (U : Unicode) (v w : Ver) (a b : List Comp) (hv : v.version = some a) (hw : w.version = some b) :
    (¬ Clash a b →
      rich U .eq v (.ver w) = .ok (decide (a = b)) ∧
      (rich U .lt v (.ver w) = .ok true ↔ Older a b) ∧ (rich U .lt v (.ver w) = .ok false ↔ ¬ Older a b) ∧
      (rich U .gt v (.ver w) = .ok true ↔ Older b a) ∧ (rich U .gt v (.ver w) = .ok false ↔ ¬ Older b a) ∧
      (rich U .le v (.ver w) = .ok true ↔ Older a b ∨ a = b) ∧ (rich U .le v (.ver w) = .ok false ↔ ¬ (Older a b ∨ a = b)) ∧
      (rich U .ge v (.ver w) = .ok true ↔ Older b a ∨ a = b) ∧ (rich U .ge v (.ver w) = .ok false ↔ ¬ (Older b a ∨ a = b))) ∧
    (Clash a b → ∀ op, rich U op v (.ver w) = .error .typeError) := by
  have e : cmp U v (.ver w) = (if a = b then .ok .eq
    else
      match listLt a b with
      | .error e => .error e
      | .ok true => .ok .lt
      | .ok false =>
        match listLt b a with
        | .error e => .error e
        | .ok _ => .ok .gt) := by
    unfold cmp; simp only [hv, hw]; rfl
  unfold rich
  rw [e]
  rcases order_cases a b with h | ⟨h1, h2, h3, h4, h5⟩ | ⟨h1, h2, h3, h4, h5⟩ | ⟨h1, h2, h3, h4⟩
  · subst h
    simp [older_irrefl, clash_irrefl]
  · have hne : a ≠ b := by rintro rfl; exact older_irrefl _ h1
    simp [h1, h2, h3, h4, hne]
  · have hne : a ≠ b := by rintro rfl; exact older_irrefl _ h1
    simp [h1, h2, h3, h4, h5, hne]
  · have hne : a ≠ b := by rintro rfl; exact clash_irrefl _ h1
    simp [h1, h4, hne]

/-- C128: exactly one of older, equal and newer, or the versions cannot be compared. -/
theorem C128_trichotomy (a b : List Comp) :
    (Older a b ∨ a = b ∨ Older b a ∨ Clash a b) ∧ ¬ (Older a b ∧ a = b) ∧ ¬ (Older a b ∧ Older b a) ∧
    ¬ (Older a b ∧ Clash a b) ∧ ¬ (a = b ∧ Clash a b) ∧ (Clash a b ↔ Clash b a) := by
  have sym : ∀ a b, Clash a b → Clash b a := by
    rintro a b ⟨p, a', b', n, t, h⟩
    exact ⟨p, b', a', n, t, h.elim (fun h => Or.inr h.symm) (fun h => Or.inl h.symm)⟩
  refine ⟨?_, ?_, ?_, ?_, ?_, sym a b, sym b a⟩
  · rcases order_cases a b with h | ⟨h, -⟩ | ⟨h, -⟩ | ⟨h, -⟩ <;> simp [h]
  · rintro ⟨h, rfl⟩; exact older_irrefl _ h
  · rintro ⟨h, h'⟩
    rcases order_cases a b with rfl | ⟨-, h2, -⟩ | ⟨-, h2, -⟩ | ⟨-, h2, -⟩
    · exact older_irrefl _ h
    · exact h2 h'
    · exact h2 h
    · exact h2 h
  · rintro ⟨h, h'⟩
    rcases order_cases a b with rfl | ⟨-, -, h2, -⟩ | ⟨-, -, h2, -⟩ | ⟨-, h2, -⟩
    · exact older_irrefl _ h
    · exact h2 h'
    · exact h2 h'
    · exact h2 h
  · rintro ⟨rfl, h⟩; exact clash_irrefl _ h

theorem compLess_trans {x y z : Comp} (h1 : CompLess x y) (h2 : CompLess y z) : CompLess x z := by
  cases x <;> cases y <;> cases z <;> simp only [CompLess] at h1 h2 ⊢
  · exact Int.lt_trans h1 h2
  · exact List.lt_trans h1 h2

theorem compLess_ne {x y : Comp} (h : CompLess x y) : x ≠ y := by
  rintro rfl
  cases x <;> simp [CompLess, List.lt_irrefl] at h

/-- C128: what is older than something older is older; in particular it can be compared. -/
theorem C128_trans (a b c : List Comp) (h1 : Older a b) (h2 : Older b c) : Older a c := by
  induction a generalizing b c with
  | nil =>
    rw [older_nil]
    rintro rfl
    exact not_older_nil _ h2
  | cons x a ih =>
    cases b with
    | nil => exact absurd h1 (not_older_nil _)
    | cons y b =>
      cases c with
      | nil => exact absurd h2 (not_older_nil _)
      | cons z c =>
        by_cases e1 : x = y
        · subst e1
          by_cases e2 : x = z
          · subst e2
            rw [older_cons] at h1 h2 ⊢
            exact ih b c h1 h2
          · rw [older_diff e2] at h2 ⊢
            exact h2
        · rw [older_diff e1] at h1
          by_cases e2 : y = z
          · subst e2
            rw [older_diff e1]
            exact h1
          · rw [older_diff e2] at h2
            have := compLess_trans h1 h2
            rw [older_diff (compLess_ne this)]
            exact this

/-- Versions that contain both numbers and texts exist on both sides. -/
example : Older [.num 10, .num 3, .str [97]] [.num 10, .num 3, .str [97, 98]] ∧
    Older [.num 10, .num 3, .str [97, 98]] [.num 10, .num 4] ∧ Clash [.num 10, .str [97]] [.num 10, .num 5] :=
  ⟨Or.inr ⟨[.num 10, .num 3], _, _, _, _, rfl, rfl, show ([97] : Text) < [97, 98] by decide⟩, Or.inr ⟨[.num 10], _, _, _, _, rfl, rfl, show (3 : Int) < 4 by decide⟩,
    [.num 10], [], [], 5, [97], Or.inr ⟨rfl, rfl⟩⟩

/-! ## Numbers with dots -/

theorem decText_ne (n : Nat) : decText n ≠ [] := by
  unfold decText ofStr
  simpa using decStr_ne_nil n

theorem decText_digits (U : Unicode) (n : Nat) : ∀ c ∈ decText n, ∃ d, d < 10 ∧ c = 48 + d ∧ digitOf U c = some d := by
  intro c hc
  simp only [decText, ofStr, List.mem_map] at hc
  obtain ⟨x, hx, rfl⟩ := hc
  obtain ⟨d, hd, rfl⟩ := decStr_digits n x hx
  have e : (decChar d).toNat = 48 + d := by
    match d, hd with
    | 0, _ | 1, _ | 2, _ | 3, _ | 4, _ | 5, _ | 6, _ | 7, _ | 8, _ | 9, _ => decide
  refine ⟨d, hd, e, ?_⟩
  rw [e]
  unfold digitOf
  rw [if_pos (by omega), if_pos (by omega)]
  congr 1
  omega

theorem digitsValue_decText (U : Unicode) (n : Nat) : digitsValue U (decText n) = n := by
  have key : ∀ (s : PyStr) (acc m : Nat), parseDecDigits s acc = some m →
      (s.map Char.toNat).foldl (fun n c => 10 * n + (digitOf U c).getD 0) acc = m := by
    intro s
    induction s with
    | nil => intro acc m h; simpa [parseDecDigits] using h
    | cons c s ih =>
      intro acc m h
      rw [parseDecDigits] at h
      unfold decDigit at h
      split at h
      · rename_i d hd
        split at hd
        · rename_i hc
          injection hd with hd
          have : digitOf U c.toNat = some d := by
            unfold digitOf
            rw [if_pos (by omega), if_pos hc, hd]
          simp only [List.map_cons, List.foldl_cons, this, Option.getD_some]
          exact ih _ _ h
        · cases hd
      · cases h
  exact key _ _ _ (parseDecDigits_decStr n)

theorem dotted_cons (n m : Nat) (ns : List Nat) : dotted (n :: m :: ns) = decText n ++ 46 :: dotted (m :: ns) := by
  simp [dotted, List.intersperse]

theorem written_dotted (U : Unicode) : ∀ ns : List Nat, Written U (dotted ns) (ns.map fun n : Nat => .num (n : Int))
  | [] => .nil
  | [n] => by
    have := Written.num (U := U) (t := []) (decText_ne n) (fun c hc => (decText_digits U n c hc).elim fun d h => ⟨d, h.2.2⟩)
      (fun c hc => by cases hc) .nil
    rw [digitsValue_decText] at this
    simpa [dotted] using this
  | n :: m :: ns => by
    have ih := written_dotted U (m :: ns)
    have := Written.num (U := U) (decText_ne n) (fun c hc => (decText_digits U n c hc).elim fun d h => ⟨d, h.2.2⟩)
      (t := 46 :: dotted (m :: ns)) (fun c hc => by
        simp at hc; subst hc; rintro ⟨d, h⟩; simp [digitOf] at h) (.dot ih)
    rw [digitsValue_decText] at this
    rw [dotted_cons]
    exact this

theorem dotted_ne {ns : List Nat} (h : ns ≠ []) : dotted ns ≠ [] := by
  match ns, h with
  | [n], _ => simpa [dotted] using decText_ne n
  | n :: m :: ns, _ => rw [dotted_cons]; simp

theorem decText_noBlank (n : Nat) : ∀ c ∈ decText n, c ≠ 32 ∧ c ≠ 10 := by
  intro c hc
  obtain ⟨d, hd, rfl, -⟩ := decText_digits ⟨fun _ => [], fun _ => none⟩ n c hc
  omega

theorem dotted_noBlank : ∀ ns : List Nat, ∀ c ∈ dotted ns, c = 46 ∨ (48 ≤ c ∧ c ≤ 57)
  | [], c, hc => by cases hc
  | [n], c, hc => by
    simp only [dotted, List.map_cons, List.map_nil, List.intersperse, List.flatten_cons, List.flatten_nil, List.append_nil] at hc
    obtain ⟨d, hd, rfl, -⟩ := decText_digits ⟨fun _ => [], fun _ => none⟩ n c hc
    omega
  | n :: m :: ns, c, hc => by
    rw [dotted_cons] at hc
    rcases List.mem_append.1 hc with hc | hc
    · obtain ⟨d, hd, rfl, -⟩ := decText_digits ⟨fun _ => [], fun _ => none⟩ n c hc
      omega
    · rcases List.mem_cons.1 hc with rfl | hc
      · exact Or.inl rfl
      · exact dotted_noBlank (m :: ns) c hc

theorem takeWhile_self {p : Nat → Bool} {t : Text} (h : ∀ c ∈ t, p c = true) : t.takeWhile p = t := by
  induction t with
  | nil => rfl
  | cons c t ih =>
    rw [List.takeWhile_cons, h c List.mem_cons_self, if_pos rfl, ih fun x hx => h x (List.mem_cons_of_mem _ hx)]

theorem make_dotted (U : Unicode) (hU : SaneDigits U) (k : Sim) (ns : List Nat) (h : ns ≠ []) :
    (make U k (dotted ns)).version = some (ns.map fun n : Nat => .num (n : Int)) := by
  rw [C128_components U hU k _ (dotted_ne h)]
  have : (dotted ns).takeWhile (· != 32) = dotted ns := takeWhile_self fun c hc => by
    have := dotted_noBlank ns c hc
    simp; omega
  rw [this]
  simpa using written_dotted U ns

theorem older_nums (a b : List Nat) :
    (Older (a.map fun n : Nat => .num (n : Int)) (b.map fun n : Nat => .num (n : Int)) ↔ a < b) ∧
    ¬ Clash (a.map fun n : Nat => .num (n : Int)) (b.map fun n : Nat => .num (n : Int)) := by
  induction a generalizing b with
  | nil =>
    refine ⟨?_, (clash_nil _).1⟩
    rw [List.map_nil, older_nil]
    cases b <;> simp
  | cons x a ih =>
    cases b with
    | nil => exact ⟨by simp [not_older_nil], (clash_nil _).2⟩
    | cons y b =>
      simp only [List.map_cons]
      by_cases h : x = y
      · subst h
        rw [older_cons, clash_cons, (ih b).1]
        exact ⟨by simp [List.cons_lt_cons_iff], (ih b).2⟩
      · have h' : (Comp.num (x : Int)) ≠ .num (y : Int) := by
          intro e; injection e with e; omega
        rw [older_diff h', clash_diff h']
        simp only [CompLess, compLt, reduceCtorEq, not_false_eq_true, and_true, List.cons_lt_cons_iff]
        omega

/-- C128: versions that are numbers with dots are ordered number by number, as numbers: 10.9 is older than 10.10. -/
theorem C128_numbers (U : Unicode) (hU : SaneDigits U) (k : Sim) (a b : List Nat) (ha : a ≠ []) (hb : b ≠ []) :
    (rich U .lt (make U k (dotted a)) (.ver (make U k (dotted b))) = .ok true ↔ a < b) ∧
    (rich U .eq (make U k (dotted a)) (.ver (make U k (dotted b))) = .ok true ↔ a = b) ∧
    (rich U .gt (make U k (dotted a)) (.ver (make U k (dotted b))) = .ok true ↔ b < a) := by
  have h := (C128_order U (make U k (dotted a)) (make U k (dotted b)) _ _ (make_dotted U hU k a ha)
    (make_dotted U hU k b hb)).1 (older_nums a b).2
  refine ⟨h.2.1.trans (older_nums a b).1, ?_, h.2.2.2.1.trans (older_nums b a).1⟩
  rw [h.1]
  simp only [Except.ok.injEq, decide_eq_true_eq]
  constructor
  · intro e
    exact List.map_inj_right (fun x y e => by injection e with e; omega) |>.1 e
  · rintro rfl; rfl

/-! ## Comparison of any two versions, and with strings -/

/-- Only ASCII digits. -/
def asciiU : Unicode := ⟨fun c => [c], fun _ => none⟩

/-- C128, full statement: any two versions of a simulator can be compared. -/
def C128_comparable_full : Prop :=
  ∀ (U : Unicode), SaneDigits U → ∀ (k : Sim) (s t : Text), s ≠ [] → t ≠ [] →
    ∃ b, rich U .lt (make U k s) (.ver (make U k t)) = .ok b

/-- `ActivehdlVersion("10.5a.12.6914") < ActivehdlVersion("10.5.216.6767")` raises TypeError. -/
theorem C128_comparable_counterexample : ¬ C128_comparable_full := by
  intro H
  obtain ⟨b, h⟩ := H asciiU (fun _ _ => rfl) .loose (ofStr "10.5a.12.6914".toList) (ofStr "10.5.216.6767".toList)
    (by decide) (by decide)
  have : rich asciiU .lt (make asciiU .loose (ofStr "10.5a.12.6914".toList))
      (.ver (make asciiU .loose (ofStr "10.5.216.6767".toList))) = .error .typeError := by decide +kernel
  rw [this] at h
  cases h

/-- C128: two versions that differ first in two numbers, in two texts, or in length can be compared. -/
theorem C128_comparable_partial (U : Unicode) (hU : SaneDigits U) (k : Sim) (s t : Text) (hs : s ≠ []) (ht : t ≠ [])
    (a b : List Comp) (ha : Written U (if k = .questa then s.takeWhile (· != 32) else s) a)
    (hb : Written U (if k = .questa then t.takeWhile (· != 32) else t) b) (hc : ¬ Clash a b) :
    (rich U .lt (make U k s) (.ver (make U k t)) = .ok true ↔ Older a b) ∧
    (rich U .lt (make U k s) (.ver (make U k t)) = .ok false ↔ ¬ Older a b) := by
  have h := (C128_order U (make U k s) (make U k t) a b ((C128_components U hU k s hs a).2 ha)
    ((C128_components U hU k t ht b).2 hb)).1 hc
  exact ⟨h.2.1, h.2.2.1⟩

/-- C128, full statement: a string is compared like the version of the same simulator that it is. -/
def C128_string_full : Prop :=
  ∀ (U : Unicode), SaneDigits U → ∀ (k : Sim) (op : Op) (s t : Text), s ≠ [] → t ≠ [] →
    rich U op (make U k s) (.str t) = rich U op (make U k s) (.ver (make U k t))

/-- `QuestaVersion("2020.1 2020.01") == "2020.1 2020.01"` is false. -/
theorem C128_string_counterexample : ¬ C128_string_full := by
  intro H
  have := H asciiU (fun _ _ => rfl) .questa .eq (ofStr "2020.1 2020.01".toList) (ofStr "2020.1 2020.01".toList)
    (by decide) (by decide)
  revert this
  decide +kernel

/-- C128: so it is for every simulator but Questa, and for Questa if the string has no blank. -/
theorem C128_string_partial (U : Unicode) (k : Sim) (op : Op) (s t : Text) (h : k = .questa → 32 ∉ t) :
    rich U op (make U k s) (.str t) = rich U op (make U k s) (.ver (make U k t)) := by
  have : (make U .loose t).version = (make U k t).version := by
    unfold make
    simp only [reduceCtorEq, if_false]
    by_cases hk : k = .questa
    · rw [if_pos hk, takeWhile_self fun c hc => by
        have : c ≠ 32 := by rintro rfl; exact h hk hc
        simpa using this]
    · rw [if_neg hk]
  have : cmp U (make U k s) (.str t) = cmp U (make U k s) (.ver (make U k t)) := by
    unfold cmp
    simp only [this]
  unfold rich
  rw [this]

/-- C128: what stands after the first blank does not matter to the version of Questa. -/
theorem C128_questa (U : Unicode) (t r : Text) (h0 : t ≠ []) (h : 32 ∉ t) : make U .questa (t ++ 32 :: r) = make U .questa t := by
  have e1 : (t ++ 32 :: r).takeWhile (· != 32) = t := by
    rw [List.takeWhile_append_of_pos (fun c hc => by
      have : c ≠ 32 := by rintro rfl; exact h hc
      simpa using this)]
    simp
  have e2 : t.takeWhile (· != 32) = t := takeWhile_self fun c hc => by
    have : c ≠ 32 := by rintro rfl; exact h hc
    simpa using this
  unfold make
  rw [if_pos rfl, if_pos rfl, e1, e2, if_neg h0, if_neg (by simp)]

/-! ## Command lines -/

theorem firstLine_eq {l r : Text} (h : 10 ∉ l) (hr : r = [] ∨ ∃ r', r = 10 :: r') : firstLine (l ++ r) = l := by
  unfold firstLine
  rw [List.takeWhile_append_of_pos (fun c hc => by
    have : c ≠ 10 := by rintro rfl; exact h hc
    simpa using this)]
  rcases hr with rfl | ⟨r', rfl⟩ <;> simp

/-- C128: the version of Icarus Verilog is the two numbers after the name, whatever follows them. -/
theorem C128_icarus (U : Unicode) (hU : SaneDigits U) (x y : Nat) (rest more : Text) (h : 10 ∉ rest)
    (hd : NotFirst (IsDigit U) rest) (hm : more = [] ∨ ∃ m, more = 10 :: m) :
    ∃ v, fromIcarus U (icarusPrefix ++ decText x ++ [46] ++ decText y ++ rest ++ more) = .ok v ∧
      v.version = some [.num x, .num y] := by
  have hl : firstLine (icarusPrefix ++ decText x ++ [46] ++ decText y ++ rest ++ more)
      = icarusPrefix ++ decText x ++ [46] ++ decText y ++ rest := by
    apply firstLine_eq _ hm
    simp only [List.mem_append, not_or]
    refine ⟨⟨⟨⟨by decide, ?_⟩, by decide⟩, ?_⟩, h⟩
    · intro hc; exact (decText_noBlank x 10 hc).2 rfl
    · intro hc; exact (decText_noBlank y 10 hc).2 rfl
  have hdig : ∀ n, ∀ c ∈ decText n, (digitOf U c).isSome = true := by
    intro n c hc
    obtain ⟨d, -, -, h⟩ := decText_digits U n c hc
    simp [h]
  have hrest : rest.takeWhile (fun c => (digitOf U c).isSome) = [] := by
    cases rest with
    | nil => rfl
    | cons c r =>
      have := hd c rfl
      rw [List.takeWhile_cons, if_neg]
      intro hc
      exact this (Option.isSome_iff_exists.1 hc)
  have hmatch : icarusMatch U (icarusPrefix ++ decText x ++ [46] ++ decText y ++ rest) = some (dotted [x, y]) := by
    unfold icarusMatch
    rw [if_pos (by simp [List.append_assoc, List.isPrefixOf_iff_prefix])]
    have e : (icarusPrefix ++ decText x ++ [46] ++ decText y ++ rest).drop icarusPrefix.length = decText x ++ (46 :: (decText y ++ rest)) := by
      simp [List.append_assoc]
    have hx : (decText x ++ (46 :: (decText y ++ rest))).takeWhile (fun c => (digitOf U c).isSome) = decText x := by
      rw [List.takeWhile_append_of_pos (hdig x)]
      simp [digitOf]
    have hy : (decText y ++ rest).takeWhile (fun c => (digitOf U c).isSome) = decText y := by
      rw [List.takeWhile_append_of_pos (hdig y), hrest, List.append_nil]
    simp only [e, hx, List.drop_left, hy]
    rw [if_neg (by simp [decText_ne])]
    simp [dotted, List.intersperse]
  refine ⟨make U .icarus (dotted [x, y]), ?_, make_dotted U hU .icarus [x, y] (by simp)⟩
  unfold fromIcarus
  rw [hl, hmatch]

/-- C128: a line that does not begin with the name of Icarus Verilog and two numbers with a dot between them is an
error. -/
theorem C128_icarus_error (U : Unicode) (l more : Text) (h : 10 ∉ l) (hm : more = [] ∨ ∃ m, more = 10 :: m)
    (hl : ¬ ∃ a d r, a ≠ [] ∧ (∀ c ∈ a, (digitOf U c).isSome = true) ∧ (digitOf U d).isSome = true ∧
      l = icarusPrefix ++ (a ++ 46 :: d :: r)) : fromIcarus U (l ++ more) = .error .valueError := by
  unfold fromIcarus
  rw [firstLine_eq h hm]
  cases hi : icarusMatch U l with
  | none => rfl
  | some v =>
    exfalso
    apply hl
    unfold icarusMatch at hi
    split at hi
    · rename_i hp
      obtain ⟨r, rfl⟩ := List.isPrefixOf_iff_prefix.1 hp
      rw [List.drop_left] at hi
      simp only at hi
      split at hi
      · rename_i r' hr'
        split at hi
        · cases hi
        · rename_i hab
          have e : r = r.takeWhile (fun c => (digitOf U c).isSome) ++ 46 :: r' := by
            rw [← hr']
            have h1 := List.take_append_drop (r.takeWhile fun c => (digitOf U c).isSome).length r
            rw [← List.prefix_iff_eq_take.1 (List.takeWhile_prefix fun c => (digitOf U c).isSome)] at h1
            exact h1.symm
          cases hr : r' with
          | nil => rw [hr] at hab; simp at hab
          | cons d r'' =>
            have hd : (digitOf U d).isSome = true := by
              rw [hr] at hab
              by_cases hd : (digitOf U d).isSome = true
              · exact hd
              · rw [List.takeWhile_cons, if_neg hd] at hab; simp at hab
            refine ⟨_, d, r'', fun ha => hab (Or.inl ha), ?_, hd, ?_⟩
            · intro c hc; exact List.all_eq_true.1 List.all_takeWhile c hc
            · rw [← hr, ← e]
      · cases hi
    · cases hi

theorem strip_ends {l : Text} (h1 : ∀ c, l.head? = some c → isBlank c = false) (h2 : ∀ c, l.getLast? = some c → isBlank c = false) :
    stripText l = l := by
  unfold stripText
  have key : ∀ l : Text, (∀ c, l.head? = some c → isBlank c = false) → l.dropWhile isBlank = l := by
    intro l hl
    cases l with
    | nil => rfl
    | cons c l => rw [List.dropWhile_cons, hl c rfl]; rfl
  rw [key l h1, key l.reverse (by simpa using h2), List.reverse_reverse]

/-- C128: the version of Verilator and of NVC is the second word of the first line if the first is the name; another
first word is an error. -/
theorem C128_named (U : Unicode) (k : Sim) (name word version rest more : Text) (hw : 32 ∉ word) (hw' : 10 ∉ word)
    (hv : 32 ∉ version) (hv' : 10 ∉ version) (hr : rest = [] ∨ ∃ r, rest = 32 :: r) (hr' : 10 ∉ rest)
    (hb : ∀ c, (word ++ [32] ++ version ++ rest).head? = some c ∨ (word ++ [32] ++ version ++ rest).getLast? = some c → isBlank c = false)
    (hm : more = [] ∨ ∃ m, more = 10 :: m) :
    fromNamed U k name (word ++ [32] ++ version ++ rest ++ more) =
      if word = name then .ok (make U k version) else .error .assertion := by
  unfold fromNamed
  rw [firstLine_eq (by simp [hw', hv', hr']) hm, strip_ends (fun c h => hb c (Or.inl h)) (fun c h => hb c (Or.inr h))]
  have e : word ++ [32] ++ version ++ rest = word ++ 32 :: (version ++ rest) := by simp
  rw [e, Env.splitGo_field hw]
  rcases hr with rfl | ⟨r, rfl⟩
  · rw [List.append_nil, Env.splitGo_free hv]
  · rw [Env.splitGo_field hv]

/-- C128: the runner asks NVC to keep the case of names from version 1.16.0 on. -/
theorem C128_nvc (U : Unicode) (hU : SaneDigits U) (x y z : Nat) (rest more : Text) (hr : rest = [] ∨ ∃ r, rest = 32 :: r)
    (hr' : 10 ∉ rest) (hb : ∀ c, rest.getLast? = some c → isBlank c = false) (hm : more = [] ∨ ∃ m, more = 10 :: m) :
    nvcPreserve U (nvcName ++ [32] ++ dotted [x, y, z] ++ rest ++ more) = .ok (decide (1 < x ∨ (x = 1 ∧ 16 ≤ y))) := by
  have hd : ∀ c ∈ dotted [x, y, z], c ≠ 32 ∧ c ≠ 10 ∧ isBlank c = false := by
    intro c hc
    have := dotted_noBlank _ c hc
    refine ⟨by omega, by omega, ?_⟩
    cases h : isBlank c
    · rfl
    · simp only [isBlank, Bool.or_eq_true, Bool.and_eq_true, decide_eq_true_eq, beq_iff_eq] at h
      omega
  unfold nvcPreserve
  rw [C128_named U .nvc nvcName nvcName _ rest more (by decide) (by decide) (fun h => (hd _ h).1 rfl)
    (fun h => (hd _ h).2.1 rfl) hr hr' ?_ hm]
  · simp only [if_true]
    have hmk : (make U .nvc [49, 46, 49, 54]).version = some ([1, 16].map fun n : Nat => .num (n : Int)) :=
      by
      rw [show ([49, 46, 49, 54] : Text) = dotted [1, 16] by decide +kernel]
      exact make_dotted U hU .nvc [1, 16] (by simp)
    have h := (C128_order U (make U .nvc (dotted [x, y, z])) (make U .nvc [49, 46, 49, 54]) _ _
      (make_dotted U hU .nvc [x, y, z] (by simp)) hmk).1 (older_nums _ _).2
    have hlt : ([1, 16] : List Nat) < [x, y, z] ↔ (1 < x ∨ (x = 1 ∧ 16 ≤ y)) := by
      simp only [List.cons_lt_cons_iff]
      simp
      omega
    by_cases hp : 1 < x ∨ (x = 1 ∧ 16 ≤ y)
    · rw [decide_eq_true hp]
      exact h.2.2.2.1.2 ((older_nums _ _).1.2 (hlt.2 hp))
    · rw [decide_eq_false hp]
      exact h.2.2.2.2.1.2 (fun e => hp (hlt.1 ((older_nums _ _).1.1 e)))
  · rintro c (h | h)
    · simp [nvcName] at h; subst h; decide
    · rw [List.getLast?_append] at h
      cases hl : rest.getLast? with
      | some l => rw [hl] at h; simp at h; subst h; exact hb _ hl
      | none =>
        rw [hl] at h
        simp only [Option.none_or] at h
        rw [List.getLast?_append] at h
        cases hq : (dotted [x, y, z]).getLast? with
        | none => exact absurd (List.getLast?_eq_none_iff.1 hq) (dotted_ne (by simp))
        | some q =>
          rw [hq] at h
          simp at h
          subst h
          exact (hd q (List.mem_of_getLast? hq)).2.2

example : nvcPreserve asciiU (ofStr "nvc 1.16.0 (Using LLVM 17.0)\nCopyright".toList) = .ok true ∧
    nvcPreserve asciiU (ofStr "nvc 1.15.2 (Using LLVM 17.0)\nCopyright".toList) = .ok false ∧
    nvcPreserve asciiU (ofStr "ghdl 1.15.2".toList) = .error .assertion ∧
    (fromIcarus asciiU (ofStr "Icarus Verilog version 11.0 (devel)".toList)).toOption.map (·.version) =
      some (some [.num 11, .num 0]) ∧
    rich asciiU .lt (make asciiU .loose (ofStr "20.03-s002".toList)) (.ver (make asciiU .loose (ofStr "20.06-g183".toList)))
      = .ok true ∧
    rich asciiU .lt (make asciiU .questa (ofStr "10.7b 2018.06".toList)) (.ver (make asciiU .questa (ofStr "10.7c 2018.08".toList)))
      = .ok true := by decide +kernel

end Verif
